import Verif.Lemmas.Outer
import Verif.Props.C05
import Verif.Props.C07
import Verif.Props.C12
import Verif.Props.C13
import Verif.Props.C14
import Verif.Props.C30
import Verif.Props.C55

/-! # Inputs with inner attributes

The partial theorems about inputs without inner attributes, for what is outside of the inputs of inner
attributes: `outlineInput n` is the input with a hole for each of those, and what is said about the
expansion is about the expansion with holes `t` in the same places. -/

namespace AutoEnums

open Spec

variable {env : Env} {traits : List Path} {en : Ident} {m : String} {n out : Node}

/-- An input with inner attributes is treated outside of them as the input with holes. -/
theorem Accepted.outer (h : Accepted env traits en m n out) (ho : Outer en m n) :
    ∃ t, Fills en out t ∧ Treats env.typeAnalysis traits en m (outlineInput n) t := by
  obtain ⟨h1, h2⟩ := ho.eq
  obtain ⟨n', h3, h4⟩ := C55_outside env traits en m n out h h1
  rw [h2] at h3
  rcases h4 with ⟨k, _, rfl⟩ | ⟨rfl, _⟩
  · exact ⟨_, fills_place _ h3, _, rfl, .inr ⟨_, _, rfl⟩⟩
  · exact ⟨_, h3, _, rfl, .inl rfl⟩

theorem hidesCode_blurK {k k' : Kind} (h : blurK en k' = blurK en k) : hidesCode k' = hidesCode k := by
  have h1 : ∀ k : Kind, hidesCode (blurK en k) = hidesCode k := by
    intro k
    unfold blurK
    split
    · split <;> rfl
    · rfl
  rw [← h1 k, ← h, h1]

theorem fillsL_mem {x : Node} {ns ss : List Node} (h : FillsL en ns ss) (hx : x ∈ ss) :
    x = letHole ∨ ∃ x' ∈ ns, Fills en x' x := by
  induction ss generalizing ns with
  | nil => cases hx
  | cons s ss ih =>
    cases h with
    | cons a b =>
      rcases List.mem_cons.mp hx with rfl | hx
      · exact .inr ⟨_, List.mem_cons_self, a⟩
      · exact (ih b hx).imp_right fun ⟨x', h1, h2⟩ => ⟨x', List.mem_cons_of_mem _ h1, h2⟩
    | letHole b =>
      rcases List.mem_cons.mp hx with rfl | hx
      · exact .inl rfl
      · exact (ih b hx).imp_right fun ⟨x', h1, h2⟩ => ⟨x', List.mem_cons_of_mem _ h1, h2⟩

/-- What is within the code with holes has its counterpart within the code. -/
theorem within_fills {x t : Node} (h : Within x t) : ∀ {out : Node}, Fills en out t →
    x = letHole ∨ ∃ x', Within x' out ∧ Fills en x' x := by
  induction h with
  | here => exact fun hf => .inr ⟨_, .here _, hf⟩
  | kid hk hm hw ih =>
    intro out hf
    cases hf with
    | hole => cases hm
    | node hb hl =>
      rcases fillsL_mem hl hm with rfl | ⟨c', h1, h2⟩
      · cases hw with
        | here => exact .inl rfl
        | kid _ hm => cases hm
      · exact (ih h2).imp_right fun ⟨x', h3, h4⟩ =>
          ⟨x', .kid ((hidesCode_blurK hb).trans hk) h1 h3, h4⟩

/-! ## The arms of a `match` -/

/-- `C05_parts` in the presence of inner attributes. -/
theorem C05_inner (env : Env) (traits : List Path) (en : Ident) (m : String) (n out : Node)
    (h : Accepted env traits en m n out) (ho : Outer en m n) (as : List Attr) (s : Node)
    (arms : List Node) (hb : Branches en m (outlineInput n) (.mk .eMatch as (s :: arms)))
    (harms : ∀ a ∈ arms, ∃ p as gs b, a = .mk (.arm p) as (gs ++ [b]) ∧ gs.length ≤ 1) :
    ∃ t s' arms', Fills en out t ∧ Alike en (resultIn t) (.mk .eMatch (strip as) (s' :: arms')) ∧
      (quiet m s = true → s' = s) ∧
      Aligned (fun arm arm' => ∃ p as gs b gs' b', arm = .mk (.arm p) as (gs ++ [b]) ∧
        arm' = .mk (.arm p) (strip as)
          (gs' ++ [if skipsArm m arm then b' else construct [] en "" b']) ∧
        gs'.length = gs.length ∧ (quietL m gs = true → gs' = gs) ∧
        (quiet m b = true → marked "nested" as = false → b' = b)) arms arms' := by
  obtain ⟨t, h1, h2⟩ := h.outer ho
  obtain ⟨s', arms', h3, h4, h5⟩ := h2.parts _ _ _ _ _ _ ho.simple as s arms hb harms
  exact ⟨t, s', arms', h1, h3, h4, h5⟩

/-- `C30` in the presence of inner attributes. -/
theorem C30_inner (env : Env) (traits : List Path) (en : Ident) (m : String) (n out : Node)
    (h : Accepted env traits en m n out) (ho : Outer en m n) (as : List Attr) (s : Node)
    (arms : List Node) (hb : Branches en m (outlineInput n) (.mk .eMatch as (s :: arms)))
    (harms : ∀ a ∈ arms, ∃ p as gs b, a = .mk (.arm p) as (gs ++ [b]) ∧ gs.length ≤ 1) :
    ∃ t as' s' arms', Fills en out t ∧ resultIn t = .mk .eMatch as' (s' :: arms') ∧
      Aligned (fun arm arm' => ∀ p gs b known, arm = .mk (.arm p) [] (gs ++ [b]) →
        hasNested gs = false → Probe m b known →
        ∃ gs' b', arm' = .mk (.arm p) [] (gs' ++ [b']) ∧ gs'.length = gs.length ∧
          (known → b' = b) ∧ (¬known → ∃ v, b' = construct [] en v b)) arms arms' := by
  obtain ⟨t, h1, h2⟩ := h.outer ho
  obtain ⟨as', s', arms', h3, h4⟩ := h2.probes _ _ _ _ _ _ ho.simple as s arms hb harms
  exact ⟨t, as', s', arms', h1, h3, h4⟩

/-! ## The values of `break` -/

/-- `C07_partial` in the presence of inner attributes: the `break`s that leave the loop, and are not in
the input of an inner attribute, have the fate they have without inner attributes.

Partial as `C07_partial` is; for loops with `#[nested]` see `C07_inner_nested_partial`. -/
theorem C07_inner_partial (env : Env) (traits : List Path) (en : Ident) (m : String) (n out : Node)
    (h : Accepted env traits en m n out) (ho : Outer en m n) (l : Option String) (as : List Attr)
    (body : Node) (hb : Branches en m (outlineInput n) (.mk (.eLoop l) as [body]))
    (hn : hasNested [body] = false) :
    ∃ t as' body', Fills en out t ∧ resultIn t = .mk (.eLoop l) as' [body'] ∧
      Aligned (Brk.Fate en m) (breaksIn l body) (breaksIn l body') := by
  obtain ⟨t, h1, h2⟩ := h.outer ho
  obtain ⟨as', body', h3, h4⟩ := h2.breaks _ _ _ _ _ _ ho.simple l as body hb hn
  exact ⟨t, as', body', h1, h3, h4⟩

/-- `C07_nested_partial` in the presence of inner attributes. -/
theorem C07_inner_nested_partial (env : Env) (traits : List Path) (en : Ident) (m : String) (n out : Node)
    (h : Accepted env traits en m n out) (ho : Outer en m n) (l : Option String) (as : List Attr)
    (body : Node) (hb : Branches en m (outlineInput n) (.mk (.eLoop l) as [body])) :
    ∃ t as' body', Fills en out t ∧ resultIn t = .mk (.eLoop l) as' [body'] ∧
      Aligned (Brk.Fate en m) (resultBreaks (jobOf en m (outlineInput n)) l body) (breaksIn l body') := by
  obtain ⟨t, h1, h2⟩ := h.outer ho
  obtain ⟨as', body', h3, h4⟩ := h2.resultBreaks _ _ _ _ _ _ ho.simple l as body hb
  exact ⟨t, as', body', h1, h3, h4⟩

/-- `C13_breaks_partial` in the presence of inner attributes. -/
theorem C13_inner_partial (env : Env) (traits : List Path) (en : Ident) (m : String) (n out : Node)
    (h : Accepted env traits en m n out) (ho : Outer en m n) (l : Option String) (as : List Attr)
    (body : Node) (hb : Branches en m (outlineInput n) (.mk (.eLoop l) as [body]))
    (hn : hasNested [body] = false) :
    ∃ t as' body', Fills en out t ∧ resultIn t = .mk (.eLoop l) as' [body'] ∧
      Aligned (fun a b => a.never = true → b.value = a.value ∨
        (a.value = some (.mac (macroPath m)) ∧ Constructs en b.value)) (breaksIn l body) (breaksIn l body') := by
  obtain ⟨t, as', body', h1, h2, h3⟩ := C07_inner_partial env traits en m n out h ho l as body hb hn
  refine ⟨t, as', body', h1, h2, h3.imp fun a b hab hnev => ?_⟩
  have : a.ours m = false := by simp [Brk.ours, hnev]
  simpa [Brk.Fate, this] using hab

/-- `C13_nested_partial` in the presence of inner attributes. -/
theorem C13_inner_nested_partial (env : Env) (traits : List Path) (en : Ident) (m : String) (n out : Node)
    (h : Accepted env traits en m n out) (ho : Outer en m n) (l : Option String) (as : List Attr)
    (body : Node) (hb : Branches en m (outlineInput n) (.mk (.eLoop l) as [body])) :
    ∃ t as' body', Fills en out t ∧ resultIn t = .mk (.eLoop l) as' [body'] ∧
      Aligned (fun a b => a.never = true → b.value = a.value ∨
        (a.value = some (.mac (macroPath m)) ∧ Constructs en b.value))
        (resultBreaks (jobOf en m (outlineInput n)) l body) (breaksIn l body') := by
  obtain ⟨t, as', body', h1, h2, h3⟩ := C07_inner_nested_partial env traits en m n out h ho l as body hb
  refine ⟨t, as', body', h1, h2, h3.imp fun a b hab hnev => ?_⟩
  have : a.ours m = false := by simp [Brk.ours, hnev]
  simpa [Brk.Fate, this] using hab

/-! ## Markers -/

/-- Without holes there is nothing to put into. -/
theorem fills_exact : ∀ {e e' : Node}, Fills en e' e →
    (∀ l ∈ labels e, l.1 ≠ .eContinue (some "") ∧ l.1 ≠ .sLocal (.plain "")) → Alike en e' e := by
  intro e
  induction e using Node.ind with
  | h k as ks ih =>
  intro e' hf hh
  cases hf with
  | hole => exact absurd rfl (hh (.eContinue (some ""), []) (by simp [labels_mk])).1
  | @node k' _ ks' _ _ hb hl =>
    have : blurL en ks' = blurL en ks := by
      have hh' : ∀ c ∈ ks, ∀ l ∈ labels c, l.1 ≠ .eContinue (some "") ∧ l.1 ≠ .sLocal (.plain "") :=
        fun c hc l hl => hh l (by
          rw [labels_mk]
          exact List.mem_cons_of_mem _ (mem_labelsL.mpr ⟨c, hc, hl⟩))
      clear hh hb
      induction ks generalizing ks' with
      | nil => cases hl; rfl
      | cons c ks ih2 =>
        cases hl with
        | cons a b =>
          rw [blurL, blurL, ih2 (fun c hc => ih c (List.mem_cons_of_mem _ hc)) b
            (fun c hc => hh' c (List.mem_cons_of_mem _ hc))]
          exact congrArg (· :: _) (ih c List.mem_cons_self a (hh' c List.mem_cons_self))
        | letHole b =>
          exact absurd rfl (hh' letHole List.mem_cons_self (.sLocal (.plain ""), [])
            (by simp [letHole, labels_mk])).2
    unfold Alike
    rw [blur, blur, hb, this]

theorem blurK_variant {k : Kind} {v : Ident} (h : blurK en k = blurK en (.ePath false (variantPath en v))) :
    ∃ v', k = .ePath false (variantPath en v') := by
  have h8 : blurK en k = .ePath false (variantPath en "") := by
    rw [h]; simp [blurK, variantPath]
  unfold blurK at h8
  split at h8
  · split at h8
    · rename_i v hv; subst hv; exact ⟨v, rfl⟩
    · rename_i e v hv
      simp only [variantPath, Kind.ePath.injEq, Path.mk.injEq, List.cons.injEq, Seg.mk.injEq] at h8
      exact absurd h8.2.2.1.1 hv
  · exact ⟨"", h8⟩

theorem ctor_fills {as : List Attr} {v : Ident} {x e : Node} (h : Fills en x (construct as en v e))
    (he : e ≠ letHole) :
    ∃ v' e', x = construct as en v' e' ∧ Fills en e' e := by
  unfold construct at *
  cases h with
  | node hb hl =>
    cases blurK_rigid hb (by simp)
    cases hl with
    | cons a b =>
      cases b with
      | cons b c =>
        cases c
        cases a with
        | node hb hl =>
          cases hl
          obtain ⟨v', rfl⟩ := blurK_variant hb
          exact ⟨v', _, rfl, b⟩
      | letHole c => exact absurd rfl he

/-- `C12_marker_partial` in the presence of inner attributes: a marker that is not in the input of an
inner attribute is replaced by a constructor call. -/
theorem C12_inner_marker_partial (env : Env) (traits : List Path) (en : Ident) (m : String) (n out : Node)
    (h : Accepted env traits en m n out) (ho : Outer en m n) (t : String) (as : List Attr) (e : Node)
    (hx : Inside (.mk (.eMacro (macroPath m) t) as [e]) (outlineInput n))
    (hh : ∀ l ∈ labels e, l.1 ≠ .eContinue (some "") ∧ l.1 ≠ .sLocal (.plain "")) :
    ∃ v, Within (construct (strip as) en v e) out := by
  obtain ⟨t', h1, h2⟩ := h.outer ho
  obtain ⟨v, h3⟩ := h2.marker _ _ _ _ _ _ ho.simple t as e hx
  rcases within_fills h3 h1 with h4 | ⟨x', h4, h5⟩
  · cases h4
  · have hne : e ≠ letHole := by
      rintro rfl
      exact absurd rfl (hh (.sLocal (.plain ""), []) (by simp [letHole, labels_mk])).2
    obtain ⟨v', e', rfl, h6⟩ := ctor_fills h5 hne
    have := fresh_blur e e' (fun l hl => (ho.simple.start l (within_labels hx.1 l (by
      rw [labels_mk]
      exact List.mem_cons_of_mem _ (mem_labelsL.mpr ⟨e, by simp, hl⟩)))).2) (fills_exact h6 hh)
    subst this
    exact ⟨v', h4⟩

/-- `C12_macros_partial` in the presence of inner attributes. -/
theorem C12_inner_macros_partial (env : Env) (traits : List Path) (en : Ident) (m : String) (n out : Node)
    (h : Accepted env traits en m n out) (ho : Outer en m n) :
    ∃ t, Fills en out t ∧
      macrosOf (startOf t) = (macrosOf (startOf (outlineInput n))).flatMap (unmark m) := by
  obtain ⟨t, h1, h2⟩ := h.outer ho
  exact ⟨t, h1, h2.macros ho.simple⟩

/-- `C12_once_partial` in the presence of inner attributes. -/
theorem C12_inner_once_partial (env : Env) (traits : List Path) (en : Ident) (m : String) (n out : Node)
    (h : Accepted env traits en m n out) (ho : Outer en m n) :
    ∃ t, Fills en out t ∧
      ∀ (as : List Attr) (v : Ident) (e : Node), Within (construct as en v e) t → ¬ IsConstruct en e := by
  obtain ⟨t, h1, h2⟩ := h.outer ho
  exact ⟨t, h1, not_twice (h2.notDoubled ho.simple)⟩

/-! ## `#[nested]` -/

/-- `C14_partial` in the presence of inner attributes. -/
theorem C14_inner_partial (env : Env) (traits : List Path) (en : Ident) (m : String) (n out : Node)
    (h : Accepted env traits en m n out) (ho : Outer en m n) (hb : (jobOf en m n).branches = true)
    (e : Node) (he : NestedAt e (startOf (outlineInput n))) (hd : diverges m e = false)
    (hr : isBranching (resultOf e).kind = true) :
    ∃ e' t, Within e' out ∧ Fills en e' t ∧ Branched en m (resultOf e) (resultOf t) := by
  obtain ⟨t, h1, h2⟩ := h.outer ho
  obtain ⟨t', h3, h4⟩ := h2.nestedBranches _ _ _ _ _ _ ho.simple (ho.job ▸ hb) e he hd hr
  rcases within_fills h3 h1 with rfl | ⟨e', h5, h6⟩
  · have hx : resultOf letHole = letHole := by decide +kernel
    rw [hx] at h4
    generalize resultOf e = x at h4
    unfold letHole at h4
    cases h4
  · exact ⟨e', t', h5, h6, h4⟩

/-! ## Cases that meet the hypotheses -/

/-- The function of `C55` with an inner attribute on a `let` initialiser and another one on an arm; the
latter is not wrapped by the outer one. -/
example : (∃ out, Accepted Ex.env [.ofIdents ["Iterator"]] "__Enum5" "marker" Ex.holedIn out) ∧
    Outer "__Enum5" "marker" Ex.holedIn ∧
    ∃ as s arms, Branches "__Enum5" "marker" (outlineInput Ex.holedIn) (.mk .eMatch as (s :: arms)) ∧
    (∀ a ∈ arms, ∃ p as gs b, a = .mk (.arm p) as (gs ++ [b]) ∧ gs.length ≤ 1) ∧
    arms.map (skipsArm "marker") = [false, true, false] := by
  obtain ⟨out, h, _⟩ := Ex.of_check (p := fun _ => true)
    (o := autoEnum Ex.env 20 5 Ex.iterator (.stmt Ex.holedIn)) (by decide +kernel)
  refine ⟨⟨out, Ex.accepted_stmt rfl h⟩,
    ⟨by decide +kernel, ⟨by decide +kernel, by decide +kernel, by decide +kernel⟩, by decide +kernel⟩, _, _, _,
    ⟨by decide +kernel, rfl, rfl, by decide +kernel⟩, ?_, by decide +kernel⟩
  intro a ha
  have ha : a ∈ [Ex.arm "0" (Ex.lit "4"), Ex.arm "1" hole, Ex.arm "_" (Ex.lit "7")] := ha
  simp only [List.mem_cons, List.not_mem_nil, or_false] at ha
  rcases ha with rfl | rfl | rfl <;> exact ⟨_, _, [], _, rfl, by simp⟩

/-- ```
'a: loop {
    if c { break 1; }
    let z = #[auto_enum(Iterator)] match x { 0 => 2, _ => 3 };
    loop { #[never] break 'a z; }
    break 'a 4;
}
``` -/
def Ex.holedLoop : Node := .mk (.eLoop (some "a")) [] [.mk .block []
  [semiS (.mk .eIf [] [Ex.var "c", .mk .block [] [semiS (.mk (.eBreak none) [] [Ex.lit "1"])]]),
   .mk (.sLocal (.plain "z")) [] [.mk .eMatch [⟨.ofIdents [NAME], .list Ex.iterator⟩]
     [Ex.var "x", Ex.arm "0" (Ex.lit "2"), Ex.arm "_" (Ex.lit "3")]],
   tailS (.mk (.eLoop none) [] [.mk .block [] [semiS (.mk (.eBreak (some "a")) [Ex.helper "never"] [Ex.var "z"])]]),
   semiS (.mk (.eBreak (some "a")) [] [Ex.lit "4"])]]

example : (∃ out, Accepted Ex.env [.ofIdents ["Iterator"]] "__Enum5" "marker" Ex.holedLoop out) ∧
    Outer "__Enum5" "marker" Ex.holedLoop ∧
    ∃ body, Branches "__Enum5" "marker" (outlineInput Ex.holedLoop) (.mk (.eLoop (some "a")) [] [body]) ∧
    hasNested [body] = false ∧ (breaksIn (some "a") body).map (Brk.ours "marker") = [true, false, true] := by
  obtain ⟨out, h, _⟩ := Ex.of_check (p := fun _ => true)
    (o := autoEnum Ex.env 20 5 Ex.iterator (.expr Ex.holedLoop)) (by decide +kernel)
  exact ⟨⟨out, Ex.accepted_expr rfl h⟩,
    ⟨by decide +kernel, ⟨by decide +kernel, by decide +kernel, by decide +kernel⟩, by decide +kernel⟩, _,
    ⟨by decide +kernel, rfl, rfl, by decide +kernel⟩, by decide +kernel, by decide +kernel⟩

/-- The marker in `let x = match a { 0 => 1, _ => { #[auto_enum(Iterator)] let y = ..; marker!(y) } };`. -/
example : Accepted Ex.env [.ofIdents ["Iterator"]] "__Enum5" "marker" Ex.letIn Ex.letOut ∧
    Outer "__Enum5" "marker" Ex.letIn ∧
    Inside (.mk (.eMacro (macroPath "marker") "..") [] [Ex.var "y"]) (outlineInput Ex.letIn) ∧
    (∀ l ∈ labels (Ex.var "y"), l.1 ≠ .eContinue (some "") ∧ l.1 ≠ .sLocal (.plain "")) ∧
    macrosOf (startOf (outlineInput Ex.letIn)) = [.mk (.eMacro (macroPath "marker") "..") [] [Ex.var "y"]] := by
  refine ⟨Ex.let_accepted,
    ⟨by decide +kernel, ⟨by decide +kernel, by decide +kernel, by decide +kernel⟩, by decide +kernel⟩,
    ⟨?_, fun h => absurd h (by decide +kernel)⟩, by decide +kernel, by decide +kernel⟩
  exact .kid rfl (List.mem_cons_of_mem _ (List.mem_cons_of_mem _ List.mem_cons_self))
    (.kid rfl List.mem_cons_self (.kid rfl (List.mem_cons_of_mem _ List.mem_cons_self)
      (.kid rfl List.mem_cons_self (.here _))))

/-- ```
match a {
    0 => #[nested] match b { 0 => 1, _ => #[auto_enum(Iterator)] match x { 0 => 2, _ => 3 } },
    _ => 4,
}
``` -/
def Ex.holedNest : Node := .mk .eMatch [] [Ex.var "a",
  Ex.arm "0" (.mk .eMatch [Ex.helper "nested"] [Ex.var "b", Ex.arm "0" (Ex.lit "1"),
    Ex.arm "_" (.mk .eMatch [⟨.ofIdents [NAME], .list Ex.iterator⟩]
      [Ex.var "x", Ex.arm "0" (Ex.lit "2"), Ex.arm "_" (Ex.lit "3")])]),
  Ex.arm "_" (Ex.lit "4")]

example : (∃ out, Accepted Ex.env [.ofIdents ["Iterator"]] "__Enum5" "marker" Ex.holedNest out) ∧
    Outer "__Enum5" "marker" Ex.holedNest ∧ (jobOf "__Enum5" "marker" Ex.holedNest).branches = true ∧
    ∃ e, NestedAt e (startOf (outlineInput Ex.holedNest)) ∧ diverges "marker" e = false ∧
      isBranching (resultOf e).kind = true := by
  obtain ⟨out, h, _⟩ := Ex.of_check (p := fun _ => true)
    (o := autoEnum Ex.env 20 5 Ex.iterator (.expr Ex.holedNest)) (by decide +kernel)
  refine ⟨⟨out, Ex.accepted_expr rfl h⟩,
    ⟨by decide +kernel, ⟨by decide +kernel, by decide +kernel, by decide +kernel⟩, by decide +kernel⟩,
    by decide +kernel, .mk .eMatch [Ex.helper "nested"] [Ex.var "b", Ex.arm "0" (Ex.lit "1"), Ex.arm "_" hole],
    .expr ?_ rfl (by decide +kernel), by decide +kernel, by decide +kernel⟩
  exact .kid rfl (List.mem_cons_of_mem _ List.mem_cons_self) (.kid rfl List.mem_cons_self (.here _))

end AutoEnums
