import Verif.Derive.Expand
import Verif.Spec.Derive
import Verif.Lemmas.Args

/-! # Lemmas about `#[enum_derive]` -/

namespace AutoEnums.Derive

open Spec

/-! ## Parsing -/

theorem pathTokens_eq (p : Path) : pathTokens p = printPath p := by
  have : ∀ l, segTokens l = printSegs l := by
    intro l
    induction l with
    | nil => rfl
    | cons s l ih =>
      cases l with
      | nil => obtain ⟨i, a⟩ := s; cases a <;> rfl
      | cons t l =>
        rw [segTokens, printSegs, ih]
        · obtain ⟨i, a⟩ := s; cases a <;> rfl
        · simp
  simp [pathTokens, printPath, this]

theorem join_cons (s : String) (l : List String) : String.join (s :: l) = s ++ String.join l := by
  simp [String.join_cons]

theorem join_append (a b : List String) : String.join (a ++ b) = String.join a ++ String.join b := by
  simp [String.join_append]

theorem toTrimmedString_eq (p : Path) : toTrimmedString p = spelling p := by
  have : ∀ l, String.join ((printSegs l).map tokText) =
      "::".intercalate (l.map fun s => s.ident ++ s.args.getD "") := by
    intro l
    induction l with
    | nil => rfl
    | cons s l ih =>
      cases l with
      | nil => obtain ⟨i, a⟩ := s; cases a <;> simp [printSegs, printSeg, tokText, String.join_cons]
      | cons t l =>
        rw [printSegs, List.map_append, List.map_cons, join_append, join_cons, ih]
        obtain ⟨i, a⟩ := s
        cases a <;> simp [printSeg, tokText, String.join_cons, String.intercalate_cons_cons, String.append_assoc]
  rw [toTrimmedString, pathTokens_eq, printPath, List.map_append, join_append, this, spelling]
  cases p.lead <;> simp [tokText, String.join_cons]

/-- The parsed form of a list of paths. -/
def named (ps : List Path) : List (String × Path) := ps.map fun p => (spelling p, p)

theorem parseLoop_print (tr : Bool) : ∀ (ps : List Path), (∀ p ∈ ps, p.segs ≠ []) → ∀ n acc,
    (printEntries tr (ps.map .trait)).length ≤ n →
    parseLoop n (printEntries tr (ps.map .trait)) acc = .ok (acc ++ named ps)
  | [], _, n, acc, _ => by cases n <;> simp [printEntries, parseLoop, named]
  | [p], hok, n, acc, hn => by
    have hp : p.segs ≠ [] := hok p (by simp)
    obtain ⟨t, ts, hts⟩ := printPath_ne_nil hp
    simp only [List.map_cons, List.map_nil, printEntries, printEntry] at hn ⊢
    match n, hn with
    | 0, hn => simp [hts] at hn
    | n + 1, hn =>
      cases tr
      · have := parsePath_print p hp [] trivial
        simp only [Bool.false_eq_true, if_false, List.append_nil] at this ⊢
        rw [hts] at this ⊢
        rw [parseLoop, this]
        · simp [named, toTrimmedString_eq]
        · simp
      · have := parsePath_print p hp [.comma] trivial
        simp only [if_true] at this ⊢
        rw [hts] at this ⊢
        rw [List.cons_append] at this ⊢
        rw [parseLoop, this]
        · cases n <;> simp [named, toTrimmedString_eq, parseLoop]
        · simp
  | p :: q :: ps, hok, n, acc, hn => by
    have hp : p.segs ≠ [] := hok p (by simp)
    obtain ⟨t, ts, hts⟩ := printPath_ne_nil hp
    have ih := parseLoop_print tr (q :: ps) (fun x hx => hok x (by simp [hx]))
    simp only [List.map_cons, printEntries, printEntry] at hn ih ⊢
    match n, hn with
    | 0, hn => simp [hts] at hn
    | n + 1, hn =>
      have := parsePath_print p hp (.comma :: printEntries tr (.trait q :: ps.map .trait)) trivial
      rw [hts] at this ⊢
      rw [List.cons_append] at this ⊢
      rw [parseLoop, this]
      · simp only [ih n (acc ++ [(toTrimmedString p, p)]) (by simp [hts] at hn; omega)]
        simp [named, toTrimmedString_eq]
      · simp

theorem parseLoop_sound : ∀ n toks acc a, parseLoop n toks acc = .ok a →
    ∃ ps, IsTraits toks ps ∧ a = acc ++ named ps := by
  intro n
  induction n with
  | zero =>
    intro toks acc a h
    match toks with
    | [] => exact ⟨[], ⟨false, by simp, rfl⟩, by simpa [parseLoop, named] using h.symm⟩
    | _ :: _ => simp [parseLoop] at h
  | succ n ih =>
    intro toks acc a h
    match toks with
    | [] => exact ⟨[], ⟨false, by simp, rfl⟩, by simpa [parseLoop, named] using h.symm⟩
    | t :: ts =>
      rw [parseLoop] at h
      split at h
      · simp at h
      · rename_i p hpp
        obtain ⟨h1, h2, _⟩ := parsePath_sound hpp
        refine ⟨[p], ⟨false, by simp [h1], ?_⟩, ?_⟩
        · simpa [printEntries, printEntry] using h2
        · simpa [named, toTrimmedString_eq] using h.symm
      · rename_i p rest hpp
        obtain ⟨hp1, hp2, _⟩ := parsePath_sound hpp
        obtain ⟨ps, ⟨tr, h1, h2⟩, h3⟩ := ih _ _ _ h
        match ps with
        | [] =>
          refine ⟨[p], ⟨true, by simp [hp1], ?_⟩, ?_⟩
          · simp [printEntries] at h2; simp [hp2, h2, printEntries, printEntry]
          · simpa [named, toTrimmedString_eq] using h3
        | q :: ps =>
          refine ⟨p :: q :: ps, ⟨tr, ?_, ?_⟩, ?_⟩
          · intro x hx
            rcases List.mem_cons.mp hx with rfl | hx
            · exact hp1
            · exact h1 x hx
          · simp [hp2, h2, printEntries, printEntry]
          · simpa [named, toTrimmedString_eq] using h3
      · simp at h
      · simp

theorem parse_iff (toks : List Tok) (a : List (String × Path)) :
    parse toks = .ok a ↔ ∃ ps, IsTraits toks ps ∧ a = named ps := by
  constructor
  · intro h
    obtain ⟨ps, h1, h2⟩ := parseLoop_sound _ _ _ _ h
    exact ⟨ps, h1, by simpa using h2⟩
  · rintro ⟨ps, ⟨tr, h1, rfl⟩, rfl⟩
    simpa [parse] using parseLoop_print tr ps h1 _ [] (Nat.le_refl _)

theorem expand_eq {fs : Features} {d : Data} {toks : List Tok} {ps : List Path}
    (h : IsTraits toks ps) : expand fs d toks = emit fs d (resolve fs (named ps)) := by
  rw [expand, (parse_iff toks _).mpr ⟨ps, h, rfl⟩]

/-! ## The table -/

theorem lookup_some {t : List Impl} {fs : Features} {s : String} {i : Impl}
    (h : lookup t fs s = some i) : i ∈ t ∧ i.enabled fs = true ∧ s ∈ i.names := by
  have h1 := List.mem_of_find?_eq_some h
  have h2 := List.find?_some h
  simp only [Bool.and_eq_true, List.any_eq_true, beq_iff_eq, exists_eq_right] at h2
  exact ⟨h1, h2⟩

/-- No name occurs twice in the whole table. -/
theorem table_names : (table.flatMap (·.names)).Nodup := by decide +kernel

theorem unique_of_nodup {α β} {f : α → List β} : ∀ {l : List α}, (l.flatMap f).Nodup → ∀ {i j b},
    i ∈ l → j ∈ l → b ∈ f i → b ∈ f j → i = j
  | [], _, _, _, _, hi, _, _, _ => by simp at hi
  | a :: l, h, i, j, b, hi, hj, hbi, hbj => by
    rw [List.flatMap_cons, List.nodup_append] at h
    obtain ⟨_, h2, h3⟩ := h
    rcases List.mem_cons.mp hi with rfl | hi <;> rcases List.mem_cons.mp hj with rfl | hj
    · rfl
    · exact absurd rfl (h3 _ hbi _ (List.mem_flatMap.mpr ⟨j, hj, hbj⟩))
    · exact absurd rfl (h3 _ hbj _ (List.mem_flatMap.mpr ⟨i, by assumption, hbi⟩))
    · exact unique_of_nodup h2 hi hj hbi hbj

theorem table_unique {i j : Impl} {s : String} (hi : i ∈ table) (hj : j ∈ table) (h1 : s ∈ i.names)
    (h2 : s ∈ j.names) : i = j := unique_of_nodup table_names hi hj h1 h2

theorem lookup_iff {t : List Impl} (ht : t.Perm table) {fs : Features} {s : String} {i : Impl} :
    lookup t fs s = some i ↔ i ∈ table ∧ i.enabled fs = true ∧ s ∈ i.names := by
  constructor
  · intro h
    obtain ⟨h1, h2⟩ := lookup_some h
    exact ⟨ht.mem_iff.mp h1, h2⟩
  · rintro ⟨h1, h2, h3⟩
    cases hl : lookup t fs s with
    | none =>
      rw [lookup, List.find?_eq_none] at hl
      have := hl i (ht.mem_iff.mpr h1)
      simp [h2, h3] at this
    | some j =>
      obtain ⟨g1, _, g3⟩ := lookup_some hl
      rw [table_unique h1 (ht.mem_iff.mp g1) h3 g3]

theorem getDerive_iff {fs : Features} {s : String} {i : Impl} :
    getDerive fs s = some i ↔ i ∈ table ∧ i.enabled fs = true ∧ s ∈ i.names :=
  lookup_iff (List.Perm.refl _)

/-- The table has exactly the documented names, under the documented features. -/
theorem table_documented :
    (table.flatMap fun i => i.names.map (·, i.feature)).Perm documented := by
  rw [← List.isPerm_iff]; decide +kernel

theorem mem_documented {s : String} {o : Option Feature} :
    (s, o) ∈ documented ↔ ∃ i ∈ table, s ∈ i.names ∧ i.feature = o := by
  rw [← table_documented.mem_iff]
  simp only [List.mem_flatMap, List.mem_map, Prod.mk.injEq]
  constructor
  · rintro ⟨i, hi, n, hn, rfl, h⟩; exact ⟨i, hi, hn, h⟩
  · rintro ⟨i, hi, hn, h⟩; exact ⟨i, hi, s, hn, rfl, h⟩

theorem supported_iff {fs : Features} {s : String} :
    Supported fs s ↔ ∃ i, getDerive fs s = some i := by
  simp only [Supported, mem_documented, getDerive_iff]
  constructor
  · rintro (⟨i, h1, h2, h3⟩ | ⟨f, ⟨i, h1, h2, h3⟩, h4⟩)
    · exact ⟨i, h1, by simp [Impl.enabled, cfg, h3], h2⟩
    · exact ⟨i, h1, by simp [Impl.enabled, cfg, h3, h4], h2⟩
  · rintro ⟨i, h1, h2, h3⟩
    cases hf : i.feature with
    | none => exact .inl ⟨i, h1, h3, hf⟩
    | some f => exact .inr ⟨f, ⟨i, h1, h3, hf⟩, by simpa [Impl.enabled, cfg, hf] using h2⟩

theorem not_supported_iff {fs : Features} {s : String} :
    ¬ Supported fs s ↔ getDerive fs s = none := by
  rw [supported_iff]
  cases getDerive fs s <;> simp

/-! ## Aliases -/

/-- The two names of one implementation are aliases and the other way round. -/
theorem alias_table : ∀ p ∈ aliases, ∃ i ∈ table, i.names = [p.1, p.2] := by decide +kernel

theorem table_alias : ∀ i ∈ table, i.names.length = 1 ∨ ∃ p ∈ aliases, i.names = [p.1, p.2] := by
  decide +kernel

theorem aliasModules_names : ∀ m ∈ aliasModules, ∃ p ∈ aliases, namesOf m.1 = [p.1, p.2] ∧
    (p.1, m.2) ∈ documented ∧ (p.2, m.2) ∈ documented := by decide +kernel

theorem aliases_modules : ∀ p ∈ aliases, ∃ m ∈ aliasModules, namesOf m.1 = [p.1, p.2] ∧
    (p.1, m.2) ∈ documented ∧ (p.2, m.2) ∈ documented := by decide +kernel

theorem aliases_functional : ∀ p ∈ aliases ++ aliases.map (fun p => (p.2, p.1)),
    ∀ q ∈ aliases ++ aliases.map (fun p => (p.2, p.1)), p.1 = q.1 → p.2 = q.2 := by decide +kernel

/-- A documented spelling is documented once. -/
theorem documented_once {s : String} {o o' : Option Feature} (h : (s, o) ∈ documented)
    (h' : (s, o') ∈ documented) : o = o' := by
  obtain ⟨i, hi, h1, h2⟩ := mem_documented.mp h
  obtain ⟨j, hj, h3, h4⟩ := mem_documented.mp h'
  rw [← h2, ← h4, table_unique hi hj h1 h3]

theorem supported_of {fs : Features} {s : String} {o : Option Feature} (h : (s, o) ∈ documented) :
    Supported fs s ↔ ∀ f, o = some f → fs f = true := by
  constructor
  · rintro (h1 | ⟨f, h1, h2⟩) g rfl
    · cases documented_once h h1
    · cases documented_once h h1; exact h2
  · intro h1
    cases o with
    | none => exact .inl h
    | some f => exact .inr ⟨f, h, h1 f rfl⟩

theorem alias_cases {a b : String} (h : Alias a b) :
    (a, b) ∈ aliases ++ aliases.map fun p => (p.2, p.1) := by
  rcases h with h | h
  · exact List.mem_append_left _ h
  · exact List.mem_append_right _ (List.mem_map.mpr ⟨_, h, rfl⟩)

theorem Alias.symm {a b : String} (h : Alias a b) : Alias b a := Or.symm h

theorem alias_fun {a b c : String} (h : Alias a b) (h' : Alias a c) : b = c :=
  aliases_functional _ (alias_cases h) _ (alias_cases h') rfl

theorem getAlias_some {fs : Features} {s x : String} (h : getAlias fs s = some x) :
    Alias s x ∧ Supported fs s := by
  obtain ⟨m, hm, h⟩ := List.exists_of_findSome?_eq_some h
  obtain ⟨p, hp, hn, hd1, hd2⟩ := aliasModules_names m hm
  rw [hn] at h
  simp only [Option.ite_none_right_eq_some] at h
  obtain ⟨hf, h⟩ := h
  have hs : ∀ f, m.2 = some f → fs f = true := by
    intro f hmf; simpa [hmf, cfg] using hf
  by_cases h1 : s = p.1
  · rw [if_pos h1] at h
    cases h; subst h1
    exact ⟨.inl hp, (supported_of hd1).mpr hs⟩
  · rw [if_neg h1] at h
    by_cases h2 : s = p.2
    · rw [if_pos h2] at h
      cases h; subst h2
      exact ⟨.inr hp, (supported_of hd2).mpr hs⟩
    · rw [if_neg h2] at h; cases h

/-- Aliases are the names of one implementation. -/
theorem alias_impl {a b : String} (h : Alias a b) :
    ∃ i ∈ table, a ∈ i.names ∧ b ∈ i.names ∧ a ≠ b := by
  have : ∀ p ∈ aliases, p.1 ≠ p.2 := by decide
  rcases h with h | h
  · obtain ⟨i, hi, h1⟩ := alias_table _ h
    exact ⟨i, hi, by simp [h1], by simp [h1], this _ h⟩
  · obtain ⟨i, hi, h1⟩ := alias_table _ h
    exact ⟨i, hi, by simp [h1], by simp [h1], (this _ h).symm⟩

theorem alias_iff {i : Impl} (hi : i ∈ table) {a b : String} (ha : a ∈ i.names) (hb : b ∈ i.names) :
    a = b ∨ Alias a b := by
  rcases table_alias i hi with h | ⟨p, hp, h⟩
  · obtain ⟨x, hx⟩ := List.length_eq_one_iff.mp h
    simp only [hx, List.mem_singleton] at ha hb
    exact .inl (ha.trans hb.symm)
  · simp only [h, List.mem_cons, List.not_mem_nil, or_false] at ha hb
    rcases ha with rfl | rfl <;> rcases hb with rfl | rfl
    · exact .inl rfl
    · exact .inr (.inl hp)
    · exact .inr (.inr hp)
    · exact .inl rfl

theorem alias_derive {fs : Features} {a b : String} (h : Alias a b) :
    getDerive fs a = getDerive fs b := by
  obtain ⟨i, hi, h1, h2, _⟩ := alias_impl h
  apply Option.ext
  intro j
  rw [getDerive_iff, getDerive_iff]
  constructor
  · rintro ⟨g1, g2, g3⟩; obtain rfl := table_unique hi g1 h1 g3; exact ⟨g1, g2, h2⟩
  · rintro ⟨g1, g2, g3⟩; obtain rfl := table_unique hi g1 h2 g3; exact ⟨g1, g2, h1⟩

theorem getAlias_of_alias {fs : Features} {a b : String} (h : Alias a b) (hs : Supported fs a) :
    getAlias fs a = some b := by
  have : ∃ m ∈ aliasModules, ∃ p : String × String, (a = p.1 ∨ a = p.2) ∧ namesOf m.1 = [p.1, p.2] ∧
      (a, m.2) ∈ documented := by
    rcases h with h | h
    · obtain ⟨m, hm, h1, h2, h3⟩ := aliases_modules _ h
      exact ⟨m, hm, _, .inl rfl, h1, h2⟩
    · obtain ⟨m, hm, h1, h2, h3⟩ := aliases_modules _ h
      exact ⟨m, hm, _, .inr rfl, h1, h3⟩
  obtain ⟨m, hm, p, hp, hn, hd⟩ := this
  have hs' := (supported_of hd).mp hs
  have : (getAlias fs a).isSome = true := by
    rw [getAlias, List.isSome_findSome?, List.any_eq_true]
    refine ⟨m, hm, ?_⟩
    have h1 : cfg fs m.2 = true := by
      cases hm2 : m.2 with
      | none => rfl
      | some f => exact hs' f hm2
    simp only [h1, if_true, hn]
    rcases hp with rfl | rfl
    · simp
    · by_cases h : p.2 = p.1
      · rw [if_pos h]; rfl
      · rw [if_neg h]; simp
  obtain ⟨x, hx⟩ := Option.isSome_iff_exists.mp this
  rw [hx, alias_fun h (getAlias_some hx).1]

theorem existsAlias_iff {fs : Features} {s : String} {v : List (String × Option Path)} :
    existsAlias fs s v = true ↔ Supported fs s ∧ ∃ e ∈ v, Alias s e.1 := by
  unfold existsAlias
  cases h : getAlias fs s with
  | none =>
    simp only [Bool.false_eq_true, false_iff, not_and, not_exists]
    intro hs e _ ha
    simp [getAlias_of_alias ha hs] at h
  | some x =>
    simp only [List.any_eq_true, beq_iff_eq]
    refine ⟨?_, ?_⟩
    · rintro ⟨e, he, rfl⟩; exact ⟨(getAlias_some h).2, e, he, (getAlias_some h).1⟩
    · rintro ⟨hs, e, he, ha⟩
      rw [getAlias_of_alias ha hs] at h
      exact ⟨e, he, by simpa using h⟩

/-! ## Dependencies -/

/-- The dependencies, none by default. -/
def depsOf (fs : Features) (s : String) : List String := (traitDeps fs s).getD []

theorem depArms_needs : ∀ a ∈ depArms, ∀ s ∈ a.1, ∀ d ∈ a.2.2, Needs s d := by decide +kernel

theorem depArms_nodup : ∀ a ∈ depArms, a.2.2.Nodup := by decide +kernel

theorem depArms_names : (depArms.flatMap (·.1)).Nodup := by decide +kernel

/-- A dependency is available whenever the trait is. -/
theorem depArms_feature' : (depArms.all fun a => a.1.all fun s => a.2.2.all fun d =>
    (a.2.1.isNone && documented.all fun e => e.1 != s && e.1 != d) ||
    (documented.contains (s, a.2.1) &&
      (documented.contains (d, none) || documented.contains (d, a.2.1)))) = true := by
  decide +kernel

theorem depArms_feature {a : List String × Option Feature × List String} (ha : a ∈ depArms)
    {s : String} (hs : s ∈ a.1) {d : String} (hd : d ∈ a.2.2) :
    (a.2.1 = none ∧ ∀ e ∈ documented, e.1 ≠ s ∧ e.1 ≠ d) ∨
    ((s, a.2.1) ∈ documented ∧ ((d, none) ∈ documented ∨ (d, a.2.1) ∈ documented)) := by
  have h := List.all_eq_true.mp depArms_feature' a ha
  have h := List.all_eq_true.mp (List.all_eq_true.mp h s hs) d hd
  simpa only [Bool.or_eq_true, Bool.and_eq_true, Option.isNone_iff_eq_none, List.all_eq_true,
    bne_iff_ne, ne_eq, List.contains_iff_mem] using h

theorem mem_depsOf {fs : Features} {s d : String} : d ∈ depsOf fs s ↔
    ∃ a ∈ depArms, s ∈ a.1 ∧ (∀ f, a.2.1 = some f → fs f = true) ∧ d ∈ a.2.2 := by
  have key : ∀ a : List String × Option Feature × List String,
      (cfg fs a.2.1 && a.1.any (· == s)) = true ↔
      (∀ f, a.2.1 = some f → fs f = true) ∧ s ∈ a.1 := by
    intro a
    cases h : a.2.1 <;> simp [cfg]
  unfold depsOf traitDeps
  constructor
  · intro h
    split at h
    · rename_i a ha
      have h1 := List.mem_of_find?_eq_some ha
      have h2 := (key a).mp (List.find?_some (p := fun a : List String × Option Feature × List String => cfg fs a.2.1 && a.1.any (· == s)) ha)
      exact ⟨a, h1, h2.2, h2.1, h⟩
    · simp at h
  · rintro ⟨a, h1, h2, h3, h4⟩
    split
    · rename_i b hb
      have g1 := List.mem_of_find?_eq_some hb
      have g2 := (key b).mp (List.find?_some (p := fun a : List String × Option Feature × List String => cfg fs a.2.1 && a.1.any (· == s)) hb)
      obtain rfl := unique_of_nodup depArms_names h1 g1 h2 g2.2
      exact h4
    · rename_i hn
      rw [List.find?_eq_none] at hn
      exact absurd ((key a).mpr ⟨h3, h2⟩) (hn a h1)

theorem depsOf_needs {fs : Features} {s d : String} (h : d ∈ depsOf fs s) : Needs s d := by
  obtain ⟨a, h1, h2, _, h4⟩ := mem_depsOf.mp h
  exact depArms_needs a h1 s h2 d h4

theorem depsOf_nodup (fs : Features) (s : String) : (depsOf fs s).Nodup := by
  unfold depsOf traitDeps
  split
  · rename_i a ha
    exact depArms_nodup a (List.mem_of_find?_eq_some ha)
  · simp

theorem depsOf_supported {fs : Features} {s d : String} (h : d ∈ depsOf fs s)
    (hs : Supported fs s) : Supported fs d := by
  obtain ⟨a, h1, h2, h3, h4⟩ := mem_depsOf.mp h
  rcases depArms_feature h1 h2 h4 with ⟨_, h5⟩ | ⟨_, h5 | h5⟩
  · rcases hs with hs | ⟨f, hs, _⟩
    · exact absurd rfl (h5 _ hs).1
    · exact absurd rfl (h5 _ hs).1
  · exact .inl h5
  · exact (supported_of h5).mpr h3

/-! ## Resolution -/

/-- Push unless an alias is present. -/
def push (fs : Features) (v : List (String × Option Path)) (e : String × Option Path) :
    List (String × Option Path) := if existsAlias fs e.1 v then v else v ++ [e]

/-- What one argument pushes. -/
def wants (fs : Features) (args : List (String × Path)) (a : String × Path) :
    List (String × Option Path) :=
  (((depsOf fs a.1).filter fun x => !args.any fun b => b.1 == x).map (·, none)) ++ [(a.1, some a.2)]

theorem resolve_eq (fs : Features) (args : List (String × Path)) :
    resolve fs args = (args.flatMap (wants fs args)).foldl (push fs) [] := by
  have : ∀ (l : List (String × Path)) v, l.foldl (resolveStep fs args) v = (l.flatMap (wants fs args)).foldl (push fs) v := by
    intro l
    induction l with
    | nil => intro v; rfl
    | cons a l ih =>
      intro v
      rw [List.foldl_cons, ih, List.flatMap_cons, List.foldl_append]
      congr 1
      unfold resolveStep wants depsOf pushDeps
      rw [List.foldl_append, List.foldl_map]
      cases traitDeps fs a.1 <;> rfl
  exact this args []

/-- An entry or an alias of it is present. -/
def Has (v : List (String × Option Path)) (s : String) : Prop :=
  ∃ e ∈ v, e.1 = s ∨ Alias s e.1

theorem push_mem {fs : Features} {l v : List (String × Option Path)} {e : String × Option Path}
    (h : e ∈ v) : e ∈ l.foldl (push fs) v := by
  induction l generalizing v with
  | nil => exact h
  | cons a l ih =>
    apply ih
    unfold push
    split
    · exact h
    · exact List.mem_append_left _ h

theorem push_has {fs : Features} {l : List (String × Option Path)} : ∀ {v} {e : String × Option Path},
    e ∈ l → Has (l.foldl (push fs) v) e.1 := by
  induction l with
  | nil => intro v e h; simp at h
  | cons a l ih =>
    intro v e h
    rcases List.mem_cons.mp h with rfl | h
    · rw [List.foldl_cons]
      by_cases hx : existsAlias fs e.1 v = true
      · obtain ⟨_, x, hx1, hx2⟩ := existsAlias_iff.mp hx
        exact ⟨x, push_mem (by simpa [push, hx] using hx1), .inr hx2⟩
      · exact ⟨e, push_mem (by simp [push, hx]), .inl rfl⟩
    · exact ih h

theorem push_sub {fs : Features} {l : List (String × Option Path)} : ∀ {v} {e : String × Option Path},
    e ∈ l.foldl (push fs) v → e ∈ v ∨ e ∈ l := by
  induction l with
  | nil => intro v e h; exact .inl h
  | cons a l ih =>
    intro v e h
    rcases ih h with h | h
    · unfold push at h
      split at h
      · exact .inl h
      · rcases List.mem_append.mp h with h | h
        · exact .inl h
        · exact .inr (by simp at h; simp [h])
    · exact .inr (List.mem_cons_of_mem _ h)

/-- Unsupported entries are never skipped. -/
theorem push_filter {fs : Features} {l : List (String × Option Path)} : ∀ {v},
    (l.foldl (push fs) v).filter (fun e => !decide (Supported fs e.1)) =
    v.filter (fun e => !decide (Supported fs e.1)) ++ l.filter (fun e => !decide (Supported fs e.1)) := by
  induction l with
  | nil => simp
  | cons a l ih =>
    intro v
    rw [List.foldl_cons, ih]
    unfold push
    split
    · rename_i h
      have := (existsAlias_iff.mp h).1
      simp [this]
    · by_cases hs : Supported fs a.1 <;> simp [hs]

/-! ## Emission -/

theorem emit_ok {fs : Features} {d : Data} : ∀ {v : List (String × Option Path)} {o : Output},
    emit fs d v = .ok o →
    o.derive = (v.filter (fun e => !decide (Supported fs e.1))).filterMap (·.2) ∧
    o.impls = v.filterMap (fun e => getDerive fs e.1) ∧ o.guard = o.impls.any (·.pin) ∧
    ∀ i ∈ o.impls, derivable d i = true := by
  intro v
  induction v with
  | nil => intro o h; cases h; simp
  | cons e v ih =>
    obtain ⟨s, a⟩ := e
    intro o h
    rw [emit.eq_def] at h
    simp only at h
    cases hg : getDerive fs s with
    | some i =>
      have hs : Supported fs s := supported_iff.mpr ⟨i, hg⟩
      rw [hg] at h
      simp only at h
      split at h
      · rename_i hd
        cases hr : emit fs d v with
        | error e => rw [hr] at h; cases h
        | ok o' =>
          rw [hr] at h
          cases h
          obtain ⟨h1, h2, h3, h4⟩ := ih hr
          refine ⟨by simp [hs, h1], by simp [hg, h2], by simp [h3], ?_⟩
          simpa [hd] using h4
      · cases h
    | none =>
      have hs : ¬ Supported fs s := not_supported_iff.mpr hg
      rw [hg] at h
      cases a with
      | none =>
        obtain ⟨h1, h2, h3, h4⟩ := ih h
        exact ⟨by simp [hs, h1], by simp [hg, h2], h3, h4⟩
      | some p =>
        simp only at h
        cases hr : emit fs d v with
        | error e => rw [hr] at h; cases h
        | ok o' =>
          rw [hr] at h
          cases h
          obtain ⟨h1, h2, h3, h4⟩ := ih hr
          exact ⟨by simp [hs, h1], by simp [hg, h2], h3, h4⟩

theorem emit_total {fs : Features} {d : Data} : ∀ {v : List (String × Option Path)},
    (∀ i ∈ v.filterMap (fun e => getDerive fs e.1), derivable d i = true) →
    ∃ o, emit fs d v = .ok o := by
  intro v
  induction v with
  | nil => intro _; exact ⟨_, rfl⟩
  | cons e v ih =>
    obtain ⟨s, a⟩ := e
    intro h
    rw [emit.eq_def]
    simp only
    cases hg : getDerive fs s with
    | some i =>
      simp only [List.filterMap_cons, hg, List.mem_cons] at h
      obtain ⟨o, ho⟩ := ih fun j hj => h j (.inr hj)
      simp only [h i (.inl rfl), if_true, ho]
      exact ⟨_, rfl⟩
    | none =>
      simp only [List.filterMap_cons, hg] at h
      obtain ⟨o, ho⟩ := ih h
      cases a with
      | none => exact ⟨o, ho⟩
      | some p => simp only [ho]; exact ⟨_, rfl⟩

/-! ## What is implemented -/

/-- `s` is requested or a dependency of something requested. -/
def Wanted (fs : Features) (ps : List Path) (s : String) : Prop :=
  ∃ p ∈ ps, s = spelling p ∨ s ∈ depsOf fs (spelling p)

theorem wants_mem {fs : Features} {args : List (String × Path)} {s : String} :
    (∃ e ∈ args.flatMap (wants fs args), e.1 = s) ↔
    ∃ a ∈ args, s = a.1 ∨ s ∈ depsOf fs a.1 := by
  constructor
  · rintro ⟨e, he, rfl⟩
    obtain ⟨a, ha, he⟩ := List.mem_flatMap.mp he
    refine ⟨a, ha, ?_⟩
    rcases List.mem_append.mp he with he | he
    · obtain ⟨d, hd, rfl⟩ := List.mem_map.mp he
      exact .inr (List.mem_filter.mp hd).1
    · simp at he; exact .inl (by rw [he])
  · rintro ⟨a, ha, rfl | hs⟩
    · exact ⟨(a.1, some a.2), List.mem_flatMap.mpr ⟨a, ha, List.mem_append_right _ (by simp)⟩, rfl⟩
    · by_cases h : (args.any fun b => b.1 == s) = true
      · obtain ⟨b, hb, h⟩ := List.any_eq_true.mp h
        simp only [beq_iff_eq] at h
        exact ⟨(b.1, some b.2), List.mem_flatMap.mpr ⟨b, hb, List.mem_append_right _ (by simp)⟩, h⟩
      · refine ⟨(s, none), List.mem_flatMap.mpr ⟨a, ha, List.mem_append_left _ ?_⟩, rfl⟩
        exact List.mem_map.mpr ⟨s, List.mem_filter.mpr ⟨hs, by simp only [Bool.not_eq_true] at h; simp only [h, Bool.not_false]⟩, rfl⟩

theorem wanted_iff {fs : Features} {ps : List Path} {s : String} :
    Wanted fs ps s ↔ ∃ e ∈ (named ps).flatMap (wants fs (named ps)), e.1 = s := by
  rw [wants_mem]
  constructor
  · rintro ⟨p, hp, h⟩; exact ⟨_, List.mem_map.mpr ⟨p, hp, rfl⟩, h⟩
  · rintro ⟨a, ha, h⟩
    obtain ⟨p, hp, rfl⟩ := List.mem_map.mp ha
    exact ⟨p, hp, h⟩

theorem resolve_impl {fs : Features} {ps : List Path} {i : Impl} :
    i ∈ (resolve fs (named ps)).filterMap (fun e => getDerive fs e.1) ↔
    ∃ s, Wanted fs ps s ∧ getDerive fs s = some i := by
  rw [resolve_eq, List.mem_filterMap]
  constructor
  · rintro ⟨e, he, hi⟩
    rcases push_sub he with h | h
    · simp at h
    · exact ⟨e.1, wanted_iff.mpr ⟨e, h, rfl⟩, hi⟩
  · rintro ⟨s, hs, hi⟩
    obtain ⟨e, he, rfl⟩ := wanted_iff.mp hs
    obtain ⟨x, hx, h | h⟩ := push_has (fs := fs) (v := []) he
    · exact ⟨x, hx, by rw [h]; exact hi⟩
    · exact ⟨x, hx, by rw [← alias_derive h]; exact hi⟩

/-- The implemented traits are those wanted and supported. -/
theorem expand_impl {fs : Features} {d : Data} {toks : List Tok} {ps : List Path} {o : Output}
    (h : IsTraits toks ps) (ho : expand fs d toks = .ok o) {i : Impl} :
    i ∈ o.impls ↔ ∃ s, Wanted fs ps s ∧ getDerive fs s = some i := by
  rw [expand_eq h] at ho
  rw [(emit_ok ho).2.1, resolve_impl]

theorem expand_derive {fs : Features} {d : Data} {toks : List Tok} {ps : List Path} {o : Output}
    (h : IsTraits toks ps) (ho : expand fs d toks = .ok o) :
    o.derive = ps.filter fun p => !decide (Supported fs (spelling p)) := by
  rw [expand_eq h] at ho
  rw [(emit_ok ho).1, resolve_eq, push_filter]
  simp only [List.filter_nil, List.nil_append]
  have : ∀ (args l : List (String × Path)),
      ((l.flatMap (wants fs args)).filter (fun e => !decide (Supported fs e.1))).filterMap (·.2) =
      (l.filter fun a => !decide (Supported fs a.1)).map (·.2) := by
    intro args l
    induction l with
    | nil => rfl
    | cons a l ih =>
      rw [List.flatMap_cons, List.filter_append, List.filterMap_append, ih]
      have h0 : ∀ m : List String, ((m.map fun x => (x, (none : Option Path))).filter
          (fun e => !decide (Supported fs e.1))).filterMap (·.2) = [] := by
        intro m
        induction m with
        | nil => rfl
        | cons x m ih => by_cases hx : Supported fs x <;> simp_all
      rw [wants, List.filter_append, List.filterMap_append, h0]
      by_cases hs : Supported fs a.1 <;> simp [hs]
  rw [this, named, List.filter_map, List.map_map]
  simp [Function.comp_def]

theorem expand_guard {fs : Features} {d : Data} {toks : List Tok} {ps : List Path} {o : Output}
    (h : IsTraits toks ps) (ho : expand fs d toks = .ok o) : o.guard = o.impls.any (·.pin) := by
  rw [expand_eq h] at ho
  exact (emit_ok ho).2.2.1

/-- Expansion succeeds iff every wanted implementation can be derived. -/
theorem expand_ok_iff {fs : Features} {d : Data} {toks : List Tok} {ps : List Path}
    (h : IsTraits toks ps) : (∃ o, expand fs d toks = .ok o) ↔
      ∀ i s, Wanted fs ps s → getDerive fs s = some i → derivable d i = true := by
  rw [expand_eq h]
  constructor
  · rintro ⟨o, ho⟩ i s hs hi
    refine (emit_ok ho).2.2.2 i ?_
    rw [(emit_ok ho).2.1]
    exact resolve_impl.mpr ⟨s, hs, hi⟩
  · intro h
    apply emit_total
    intro i hi
    obtain ⟨s, hs, hg⟩ := resolve_impl.mp hi
    exact h i s hs hg

/-! ## No repetition -/

theorem push_nodup {fs : Features} : ∀ {l v : List (String × Option Path)},
    ((v ++ l).map (·.1)).Nodup →
    v.Pairwise (fun a b => ¬ (Supported fs b.1 ∧ Alias a.1 b.1)) →
    ((l.foldl (push fs) v).map (·.1)).Nodup ∧
    (l.foldl (push fs) v).Pairwise (fun a b => ¬ (Supported fs b.1 ∧ Alias a.1 b.1)) := by
  intro l
  induction l with
  | nil => intro v h1 h2; exact ⟨by simpa using h1, h2⟩
  | cons e l ih =>
    intro v h1 h2
    rw [List.foldl_cons]
    by_cases hx : existsAlias fs e.1 v = true
    · apply ih
      · simp only [push, hx, if_true]
        refine h1.sublist ?_
        exact ((List.Sublist.refl v).append (List.sublist_cons_self e l)).map _
      · simpa only [push, hx, if_true] using h2
    · apply ih
      · simpa [push, hx] using h1
      · simp only [push, hx]
        simp only [Bool.false_eq_true, if_false]
        rw [List.pairwise_append]
        refine ⟨h2, by simp, ?_⟩
        intro a ha b hb
        simp only [List.mem_singleton] at hb
        subst hb
        rintro ⟨hs, hal⟩
        exact hx (existsAlias_iff.mpr ⟨hs, a, ha, hal.symm⟩)

theorem nodup_impls {fs : Features} {v : List (String × Option Path)}
    (h1 : (v.map (·.1)).Nodup)
    (h2 : v.Pairwise (fun a b => ¬ (Supported fs b.1 ∧ Alias a.1 b.1))) :
    (v.filterMap (fun e => getDerive fs e.1)).Nodup := by
  rw [List.Nodup, List.pairwise_filterMap]
  rw [List.Nodup, List.pairwise_map] at h1
  refine (h1.and h2).imp ?_
  rintro a b ⟨g1, g2⟩ i hi j hj rfl
  obtain ⟨t1, _, t3⟩ := getDerive_iff.mp hi
  obtain ⟨u1, _, u3⟩ := getDerive_iff.mp hj
  rcases alias_iff t1 t3 u3 with h | h
  · exact g1 h
  · exact g2 ⟨supported_iff.mpr ⟨_, hj⟩, h⟩

end AutoEnums.Derive
