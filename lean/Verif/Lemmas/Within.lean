import Verif.Spec.Within
import Verif.Lemmas.Break

/-! # Lemmas: parts of a tree and what becomes of them -/

namespace AutoEnums

open Spec

theorem Spec.Within.trans {a b c : Node} (h1 : Within a b) (h2 : Within b c) : Within a c := by
  induction h2 with
  | here => exact h1
  | kid hk hc _ ih => exact .kid hk hc (ih h1)

theorem Spec.Within.one {k : Kind} {as : List Attr} {ks : List Node} {c : Node} (hk : hidesCode k = false)
    (hc : c ∈ ks) : Within c (.mk k as ks) := .kid hk hc (.here c)

/-! ## Up to the names of variants -/

theorem mem_blurL {en : Ident} {ks : List Node} {c : Node} (h : c ∈ ks) : blur en c ∈ blurL en ks := by
  induction ks with
  | nil => cases h
  | cons a ks ih =>
    rw [blurL]
    rcases List.mem_cons.mp h with rfl | h
    · simp
    · simp [ih h]

theorem of_mem_blurL {en : Ident} {ks : List Node} {c' : Node} (h : c' ∈ blurL en ks) :
    ∃ c ∈ ks, blur en c = c' := by
  induction ks with
  | nil => cases h
  | cons a ks ih =>
    rw [blurL] at h
    rcases List.mem_cons.mp h with rfl | h
    · exact ⟨a, by simp, rfl⟩
    · obtain ⟨c, hc, he⟩ := ih h
      exact ⟨c, by simp [hc], he⟩

theorem hidesCode_blur (en : Ident) (k : Kind) : hidesCode (blurK en k) = hidesCode k := by
  by_cases h : ∃ p, k = .ePath false p
  · obtain ⟨p, rfl⟩ := h
    rw [blurK_blurPath]
    rfl
  · rw [blurK_other en fun p hp => h ⟨p, hp⟩]

theorem Spec.Within.blur {en : Ident} {x n : Node} (h : Within x n) : Within (blur en x) (blur en n) := by
  induction h with
  | here => exact .here _
  | kid hk hc _ ih =>
    rw [Spec.blur]
    exact .kid (by rw [hidesCode_blur]; exact hk) (mem_blurL hc) ih

theorem Spec.Within.of_blur {en : Ident} : ∀ (n : Node) {x' : Node}, Within x' (Spec.blur en n) →
    ∃ x, Within x n ∧ Spec.blur en x = x' := by
  refine Node.ind (P := fun n => ∀ {x' : Node}, Within x' (Spec.blur en n) →
    ∃ x, Within x n ∧ Spec.blur en x = x') ?_
  intro k as ks ih x' h
  rw [Spec.blur] at h
  cases h with
  | here => exact ⟨_, .here _, by rw [Spec.blur]⟩
  | kid hk hc hx =>
    obtain ⟨c, hm, rfl⟩ := of_mem_blurL hc
    obtain ⟨x, h1, h2⟩ := ih c hm hx
    exact ⟨x, .kid (by rw [hidesCode_blur] at hk; exact hk) hm h1, h2⟩

theorem Spec.Within.alike {en : Ident} {a b x : Node} (h : Alike en a b) (hx : Within x b) :
    ∃ x', Within x' a ∧ Alike en x' x := by
  have := hx.blur (en := en)
  rw [← h] at this
  obtain ⟨x', h1, h2⟩ := Within.of_blur a this
  exact ⟨x', h1, h2⟩

/-- Code without constructors is what it is. -/
theorem fresh_blur {en : Ident} : ∀ (n n' : Node), (∀ l ∈ labels n, isCtor en l = 0) →
    Spec.blur en n' = Spec.blur en n → n' = n := by
  refine Node.ind (P := fun n => ∀ n', (∀ l ∈ labels n, isCtor en l = 0) →
    Spec.blur en n' = Spec.blur en n → n' = n) ?_
  intro k as ks ih n' hf he
  obtain ⟨k', as', ks'⟩ := n'
  rw [Spec.blur, Spec.blur] at he
  injection he with h1 h2 h3
  have hk : k' = k := by
    have hz : isCtor en (k, as) = 0 := hf _ (by simp)
    have hb : blurK en k = k := by
      by_cases h : ∃ p, k = .ePath false p
      · obtain ⟨p, rfl⟩ := h
        rw [blurK_blurPath]
        rcases blurPath_cases en p with ⟨v, rfl, _⟩ | ⟨_, h⟩
        · simp [isCtor, variantPath] at hz
        · rw [h]
      · exact blurK_other en fun p hp => h ⟨p, hp⟩
    rw [hb] at h1
    by_cases h : ∃ p, k' = .ePath false p
    · obtain ⟨p, rfl⟩ := h
      rw [blurK_blurPath] at h1
      rcases blurPath_cases en p with ⟨v, _, h⟩ | ⟨_, h⟩
      · rw [h] at h1
        rw [← h1] at hz
        simp [isCtor, variantPath] at hz
      · rw [h] at h1; exact h1
    · rw [blurK_other en fun p hp => h ⟨p, hp⟩] at h1
      exact h1
  have hks : ∀ (l l' : List Node), (∀ c ∈ l, c ∈ ks) → blurL en l' = blurL en l → l' = l := by
    intro l
    induction l with
    | nil =>
      intro l' _ h
      cases l' with
      | nil => rfl
      | cons _ _ => simp [blurL] at h
    | cons a l ihl =>
      intro l' hm h
      cases l' with
      | nil => simp [blurL] at h
      | cons b l' =>
        simp only [blurL, List.cons.injEq] at h
        rw [ih a (hm a (by simp)) b (fun x hx => hf x (by
          rw [labels_mk]
          exact List.mem_cons_of_mem _ (mem_labelsL.mpr ⟨a, hm a (by simp), hx⟩))) h.1,
          ihl l' (fun c hc => hm c (by simp [hc])) h.2]
  rw [hk, h2, hks ks ks' (fun _ h => h) h3]

/-! ## Parts of the treatment -/

theorem mem_treatL {J : Job} {w : Where} {c : Node} : ∀ {ks : List Node} {ts : Nat → List Target}
    {rs : Nat → Role}, c ∈ ks → onceL J rs ks = true →
    ∃ i, once J (rs i) c = true ∧ treat J w (ts i) (rs i) c ∈ treatL J w ts rs ks
  | [], _, _, h, _ => by cases h
  | a :: ks, ts, rs, h, ho => by
    rw [onceL, Bool.and_eq_true] at ho
    rw [treatL]
    rcases List.mem_cons.mp h with rfl | h
    · exact ⟨0, ho.1, by simp⟩
    · obtain ⟨i, h1, h2⟩ := mem_treatL (w := w) (ts := fun i => ts (i + 1)) h ho.2
      exact ⟨i + 1, h1, by simp [h2]⟩

theorem within_ctor (J : Job) (as : List Attr) (e : Node) : Within e (ctor J as e) :=
  .one rfl (by simp)

theorem within_wrapLast {J : Job} {x c : Node} :
    ∀ {ks : List Node}, c ∈ ks → Within x c → ∃ c' ∈ wrapLast J ks, Within x c'
  | [], h, _ => by cases h
  | [e], h, hx => by
    simp only [List.mem_singleton] at h
    subst h
    exact ⟨_, by simp [wrapLast], hx.trans (within_ctor J [] _)⟩
  | e :: e' :: es, h, hx => by
    rcases List.mem_cons.mp h with rfl | h
    · exact ⟨_, by simp [wrapLast], hx⟩
    · obtain ⟨c', h1, h2⟩ := within_wrapLast (J := J) h hx
      exact ⟨c', by simp [wrapLast, h1], h2⟩

theorem within_assemble {J : Job} {w : Where} {ts : List Target} {r : Role} {k : Kind} {as : List Attr}
    {ks ks' : List Node} {c x : Node} (hk : hidesCode k = false) (hc : c ∈ ks') (hx : Within x c) :
    Within x (assemble J w ts r k as ks ks') := by
  have hhead : ∀ k as, hidesCode k = false → Within x (.mk k as (wrapHead J ks')) := by
    intro k as hk
    cases ks' with
    | nil => cases hc
    | cons e es =>
      rcases List.mem_cons.mp hc with rfl | hc
      · exact .kid hk (c := ctor J [] c) (by simp [wrapHead]) (hx.trans (within_ctor J [] _))
      · exact .kid hk (c := c) (by simp [wrapHead, hc]) hx
  unfold assemble
  dsimp only
  split
  · split
    · exact hhead _ _ rfl
    · exact .kid rfl hc hx
  · split
    · exact hhead _ _ rfl
    · exact .kid rfl hc hx
  · split
    · split
      · simp only [List.mem_singleton] at hc
        subst hc
        exact .kid rfl (by simp) hx
      · exact .kid rfl hc hx
    · exact .kid rfl hc hx
  · cases hk
  · by_cases hr : r = .branch
    · obtain ⟨c', h1, h2⟩ := within_wrapLast (J := J) hc hx
      simp only [hr, if_true]
      exact .kid rfl h1 h2
    · simp only [hr, if_false]
      exact .kid rfl hc hx
  all_goals try by_cases hr : r = .branch
  all_goals try simp only [hr, if_true, if_false]
  all_goals first
    | exact .kid hk hc hx
    | exact .kid rfl (c := .mk (.sExpr false) [] [ctor J [] (.mk (.eBlock none) [] ks')])
        (by simp [wrapAll]) (.kid rfl (c := ctor J [] (.mk (.eBlock none) [] ks')) (by simp)
          ((Within.kid rfl hc hx).trans (within_ctor J [] _)))

/-- What becomes of a part is a part of what becomes of the whole. -/
theorem within_treat {J : Job} {x n : Node} (h : Within x n) : ∀ (w : Where) (ts : List Target) (r : Role),
    once J r n = true →
    ∃ w' ts' r', once J r' x = true ∧ Within (treat J w' ts' r' x) (treat J w ts r n) := by
  induction h with
  | here => exact fun w ts r ho => ⟨w, ts, r, ho, .here _⟩
  | @kid k ks c x as hk hc _ ih =>
    intro w ts r ho
    rw [once, hk, Bool.false_or, Bool.and_eq_true] at ho
    obtain ⟨i, h1, h2⟩ := mem_treatL (w := w.enter k)
      (ts := fun i => kidTargets ts (role J r k as ks) k as i) hc ho.2
    obtain ⟨w', ts', r', h3, h4⟩ := ih _ _ _ h1
    refine ⟨w', ts', r', h3, ?_⟩
    rw [treat.eq_def J w]
    dsimp only
    rw [hk]
    exact within_assemble hk h2 h4

theorem within_treatExpr {en : Ident} {m : String} {e x : Node} (ho : ordinaryExpr en m false e = true)
    (hx : Within x (bodyOf e)) :
    ∃ w ts r, once (jobOfExpr en m e) r x = true ∧
      Within (treat (jobOfExpr en m e) w ts r x) (treatExpr en m false e) := by
  rcases Classical.em (∃ i as b, e = .mk (.eClosure i) as [b]) with ⟨i, as, b, rfl⟩ | hn
  · simp only [ordinaryExpr, ordinaryIn, Bool.and_eq_true] at ho
    obtain ⟨w, ts, r, h1, h2⟩ := within_treat hx {} [] _ ho.2.2
    exact ⟨w, ts, r, h1, h2.trans (.one rfl (by simp [bodyOf]))⟩
  · have h1 : jobOfExpr en m e = exprJob en m false := by
      unfold jobOfExpr
      split
      · exact (hn ⟨_, _, _, rfl⟩).elim
      · rfl
    have h2 : bodyOf e = e := by
      unfold bodyOf
      split
      · exact (hn ⟨_, _, _, rfl⟩).elim
      · rfl
    have h3 : treatExpr en m false e = treat (exprJob en m false) {} [] .result e := by
      unfold treatExpr
      split
      · exact (hn ⟨_, _, _, rfl⟩).elim
      · rfl
    have h4 : ordinaryExpr en m false e = ordinaryIn (exprJob en m false) (exprJob en m false).start e := by
      unfold ordinaryExpr
      split
      · exact (hn ⟨_, _, _, rfl⟩).elim
      · rfl
    rw [h4] at ho
    simp only [ordinaryIn, Bool.and_eq_true] at ho
    rw [h1, h3]
    rw [h2] at hx
    exact within_treat hx {} [] _ ho.2

theorem within_semi {en : Ident} {m : String} {e x : Node} (ho : ordinaryExpr en m true e = true)
    (hx : Within x (bodyOf e)) :
    ∃ w ts r, once (exprJob en m true) r x = true ∧
      Within (treat (exprJob en m true) w ts r x) (treatExpr en m true e) := by
  have h3 : treatExpr en m true e = treat (exprJob en m true) {} [] .plain e := by
    unfold treatExpr
    rfl
  have h2 : Within x e := by
    unfold bodyOf at hx
    split at hx
    · exact hx.trans (.one rfl (by simp))
    · exact hx
  simp only [ordinaryExpr, ordinaryIn, Bool.and_eq_true] at ho
  rw [h3]
  exact within_treat h2 {} [] _ ho.2

theorem within_inBlock (g e : Node) : Within e (inBlock g e) :=
  .kid rfl (c := .mk (.sExpr false) [] [e]) (by simp) (.one rfl (by simp))

/-- The code in which wrapping takes place. -/
def content : Node → List Node
  | .mk (.sExpr _) _ [e] => [e]
  | .mk (.sLocal _) _ (e :: _) => [e]
  | .mk (.iFn _ _) _ [.mk .block _ ss] => ss
  | e => [e]

theorem content_within {n c : Node} (h : c ∈ content n) : Within c n := by
  unfold content at h
  split at h
  · exact .one rfl h
  · simp only [List.mem_singleton] at h
    subst h
    exact .one rfl (by simp)
  · exact .kid rfl (List.mem_singleton.mpr rfl) (.one rfl h)
  · simp only [List.mem_singleton] at h
    subst h
    exact .here _

theorem content_placeEnum {g n c : Node} (h : c ∈ content n) : Within c (placeEnum g n) := by
  unfold content at h
  unfold placeEnum
  split at h
  · simp only [List.mem_singleton] at h
    subst h
    exact .kid rfl (c := inBlock g c) (by simp) (within_inBlock _ _)
  · simp only [List.mem_singleton] at h
    subst h
    exact .kid rfl (c := inBlock g c) (by simp) (within_inBlock _ _)
  · exact .kid rfl (List.mem_singleton.mpr rfl) (.one rfl (by simp [h]))
  · rename_i h1 h2 h3
    simp only [List.mem_singleton] at h
    subst h
    split
    · exact (h1 _ _ _ rfl).elim
    · exact (h2 _ _ _ _ rfl).elim
    · exact (h3 _ _ _ _ _ rfl).elim
    · exact within_inBlock _ _

theorem content_blur (en : Ident) (n : Node) : content (blur en n) = blurL en (content n) := by
  obtain ⟨k, as, ks⟩ := n
  rw [blur]
  by_cases h : ∃ p, k = .ePath false p
  · obtain ⟨p, rfl⟩ := h
    rw [blurK_blurPath]
    simp only [content, blurL, blur, blurK_blurPath]
  · rw [blurK_other en fun p hp => h ⟨p, hp⟩]
    cases k <;> try (simp only [content, blurL, blur]; rw [blurK_other en fun p hp => h ⟨p, hp⟩]; done)
    case sExpr =>
      rcases ks with _ | ⟨e, _ | ⟨_, _⟩⟩ <;> simp [content, blurL, blur, blurK]
    case sLocal =>
      rcases ks with _ | ⟨e, _⟩ <;> simp [content, blurL, blur, blurK]
    case iFn =>
      rcases ks with _ | ⟨⟨k, _, _⟩, _ | ⟨_, _⟩⟩
      · simp [content, blurL, blur, blurK]
      · by_cases h : ∃ p, k = .ePath false p
        · obtain ⟨p, rfl⟩ := h
          simp only [content, blurL, blur, blurK_blurPath]
          simp [blurK]
        · cases k <;> simp [content, blurL, blur, blurK_other en fun p hp => h ⟨p, hp⟩] <;> simp [blurK]
      · simp [content, blurL, blur, blurK]

theorem content_retype (b : Bool) (traits : List Path) (n : Node)
    (h : ∀ p as, n ≠ .mk (.sLocal p) as []) : content (retype b traits n) = content n := by
  unfold retype
  split
  · split
    · rename_i ks _
      cases ks with
      | nil => exact absurd rfl (h _ _)
      | cons _ _ => rfl
    · rfl
  · rfl

theorem within_body {J : Job} {ss : List Node} {x : Node}
    (ho : onceL J (bodyRole J ss.length) ss = true) (hx : Within x (.mk (.eBlock none) [] ss))
    (hne : x ≠ .mk (.eBlock none) [] ss) :
    ∃ w ts r, once J r x = true ∧ ∃ c ∈ treatBody J ss, Within (treat J w ts r x) c := by
  cases hx with
  | here => exact absurd rfl hne
  | kid _ hc hx =>
    obtain ⟨i, h1, h2⟩ := mem_treatL (w := {}) (ts := fun _ => []) hc ho
    obtain ⟨w, ts, r, h3, h4⟩ := within_treat hx _ _ _ h1
    exact ⟨w, ts, r, h3, _, h2, h4⟩

theorem within_treatInput {en : Ident} {m : String} {n x : Node}
    (ho : ordinary en m n = true) (hx : Inside x n) :
    ∃ w ts r, once (jobOf en m n) r x = true ∧
      ∃ c ∈ content (treatInput en m n), Within (treat (jobOf en m n) w ts r x) c := by
  obtain ⟨hx, hne⟩ := hx
  unfold ordinary at ho
  split at ho
  · rename_i semi as e
    cases semi with
    | true =>
      obtain ⟨w, ts, r, h1, h2⟩ := within_semi ho hx
      exact ⟨w, ts, r, h1, _, by simp [treatInput, content], h2⟩
    | false =>
      obtain ⟨w, ts, r, h1, h2⟩ := within_treatExpr ho hx
      exact ⟨w, ts, r, h1, _, by simp [treatInput, content], h2⟩
  · obtain ⟨w, ts, r, h1, h2⟩ := within_treatExpr ho hx
    exact ⟨w, ts, r, h1, _, by simp [treatInput, content], h2⟩
  · simp only [ordinaryBody, Bool.and_eq_true] at ho
    obtain ⟨w, ts, r, h1, c, h2, h3⟩ := within_body ho.2.2 hx fun h => hne h _ _ _ _ rfl
    exact ⟨w, ts, r, h1, c, h2, h3⟩
  · rename_i h1 h2 h3
    simp only [Bool.and_eq_true] at ho
    have he := ho.1
    have hn : targetOf n = n := by
      unfold targetOf
      split
      · cases he
      · cases he
      · cases he
      · rfl
    have hj : jobOf en m n = jobOfExpr en m n := by
      unfold jobOf
      split
      · cases he
      · cases he
      · rw [hn]
    have ht : treatInput en m n = treatExpr en m false n := by
      unfold treatInput
      split
      · cases he
      · cases he
      · cases he
      · rfl
    unfold startOf at hx
    rw [hn] at hx
    obtain ⟨w, ts, r, h1, h2⟩ := within_treatExpr ho.2 hx
    rw [hj, ht]
    refine ⟨w, ts, r, h1, _, ?_, h2⟩
    have := isExprNode_treatExpr (en := en) (m := m) (semi := false) he
    generalize treatExpr en m false n = q at *
    obtain ⟨k, as, ks⟩ := q
    cases k <;> first | (simp [content]; done) | cases this

theorem Treats.within {b : Bool} {traits : List Path} {en : Ident} {m : String} {n out x : Node}
    (h : Treats b traits en m n out) (hs : Simple en m n) (hx : Inside x n) :
    ∃ w ts r x', once (jobOf en m n) r x = true ∧ Within x' out ∧
      Alike en x' (treat (jobOf en m n) w ts r x) := by
  obtain ⟨n', h1, ho⟩ := h
  obtain ⟨w, ts, r, h2, c, h3, h4⟩ := within_treatInput hs.ordinary hx
  rw [← content_retype b traits _ (treatInput_local hs.ordinary)] at h3
  have h5 := mem_blurL (en := en) h3
  rw [← content_blur, ← h1, content_blur] at h5
  obtain ⟨c', h6, h7⟩ := of_mem_blurL h5
  obtain ⟨x', h8, h9⟩ := h4.alike h7
  refine ⟨w, ts, r, x', h2, h8.trans ?_, h9⟩
  rcases ho with rfl | ⟨k, ds, rfl⟩
  · exact content_within h6
  · exact content_placeEnum h6

end AutoEnums
