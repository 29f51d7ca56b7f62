import Verif.Args
import Verif.Spec.Args

/-! # The argument parser inverts the printer -/

namespace AutoEnums

open Spec

/-- What may follow a path: not `::` and not `<`. -/
def Stop : List Tok → Prop
  | .colon2 :: _ => False
  | .angle _ :: _ => False
  | _ => True

theorem parseSegs_print : ∀ (l : List Seg), l ≠ [] → ∀ rest, Stop rest →
    parseSegs (printSegs l ++ rest) = some (l, rest)
  | [], h, _, _ => absurd rfl h
  | [⟨s, none⟩], _, rest, hs => by
    simp only [printSegs, printSeg, List.cons_append, List.nil_append]
    match rest, hs with
    | [], _ => rfl
    | .ident _ :: _, _ => rfl
    | .comma :: _, _ => rfl
    | .eq :: _, _ => rfl
    | .other _ :: _, _ => rfl
  | [⟨s, some a⟩], _, rest, hs => by
    simp only [printSegs, printSeg, List.cons_append, List.nil_append]
    match rest, hs with
    | [], _ => rfl
    | .ident _ :: _, _ => rfl
    | .comma :: _, _ => rfl
    | .eq :: _, _ => rfl
    | .other _ :: _, _ => rfl
  | ⟨s, none⟩ :: t :: ss, _, rest, hs => by
    have ih := parseSegs_print (t :: ss) (by simp) rest hs
    simp only [printSegs, printSeg, List.cons_append, List.nil_append]
    rw [parseSegs]
    · simp only [ih]
  | ⟨s, some a⟩ :: t :: ss, _, rest, hs => by
    have ih := parseSegs_print (t :: ss) (by simp) rest hs
    simp only [printSegs, printSeg, List.cons_append, List.nil_append]
    rw [parseSegs, ih]

theorem parseSegs_sound (toks : List Tok) : ∀ l rest, parseSegs toks = some (l, rest) →
    l ≠ [] ∧ toks = printSegs l ++ rest ∧ rest.length < toks.length := by
  fun_induction parseSegs toks with
  | case1 s a rest l' r' h ih =>
    intro l rest' h'
    simp only [Option.some.injEq, Prod.mk.injEq] at h'
    obtain ⟨rfl, rfl⟩ := h'
    obtain ⟨h1, h2, h3⟩ := ih _ _ h
    subst h2
    match l', h1 with
    | t :: ss, _ => simp [printSegs, printSeg] at h3 ⊢
                    try omega
  | case2 => intro l rest' h'; cases h'
  | case3 s a rest h =>
    intro l rest' h'
    simp only [Option.some.injEq, Prod.mk.injEq] at h'
    obtain ⟨rfl, rfl⟩ := h'
    simp [printSegs, printSeg]; omega
  | case4 s rest l' r' h ih =>
    intro l rest' h'
    simp only [Option.some.injEq, Prod.mk.injEq] at h'
    obtain ⟨rfl, rfl⟩ := h'
    obtain ⟨h1, h2, h3⟩ := ih _ _ h
    subst h2
    match l', h1 with
    | t :: ss, _ => simp [printSegs, printSeg] at h3 ⊢
                    try omega
  | case5 => intro l rest' h'; cases h'
  | case6 s rest h1 h2 h3 =>
    intro l rest' h'
    simp only [Option.some.injEq, Prod.mk.injEq] at h'
    obtain ⟨rfl, rfl⟩ := h'
    simp [printSegs, printSeg]
  | case7 => intro l rest' h'; cases h'

theorem parsePath_print (p : Path) (hp : p.segs ≠ []) (rest : List Tok) (hs : Stop rest) :
    parsePath (printPath p ++ rest) = some (p, rest) := by
  obtain ⟨lead, segs⟩ := p
  cases lead with
  | true =>
    simp [printPath, parsePath, parseSegs_print segs hp rest hs]
  | false =>
    simp only [printPath, Bool.false_eq_true, if_false, List.nil_append]
    have h := parseSegs_print segs hp rest hs
    unfold parsePath
    split
    · rename_i r heq
      match segs, hp with
      | [⟨s, none⟩], _ => simp [printSegs, printSeg] at heq
      | [⟨s, some a⟩], _ => simp [printSegs, printSeg] at heq
      | ⟨s, none⟩ :: t :: ss, _ => simp [printSegs, printSeg] at heq
      | ⟨s, some a⟩ :: t :: ss, _ => simp [printSegs, printSeg] at heq
    · rw [h]; rfl

theorem parsePath_sound {toks : List Tok} {p : Path} {rest : List Tok}
    (h : parsePath toks = some (p, rest)) :
    p.segs ≠ [] ∧ toks = printPath p ++ rest ∧ rest.length < toks.length := by
  unfold parsePath at h
  split at h
  · rename_i r
    cases h' : parseSegs r with
    | none => simp [h'] at h
    | some x =>
      obtain ⟨l, r'⟩ := x
      simp only [h', Option.map_some, Option.some.injEq, Prod.mk.injEq] at h
      obtain ⟨rfl, rfl⟩ := h
      obtain ⟨h1, h2, h3⟩ := parseSegs_sound _ _ _ h'
      refine ⟨h1, ?_, ?_⟩
      · simp [printPath, h2]
      · simp at h3 ⊢; omega
  · cases h' : parseSegs toks with
    | none => simp [h'] at h
    | some x =>
      obtain ⟨l, r'⟩ := x
      simp only [h', Option.map_some, Option.some.injEq, Prod.mk.injEq] at h
      obtain ⟨rfl, rfl⟩ := h
      obtain ⟨h1, h2, h3⟩ := parseSegs_sound _ _ _ h'
      exact ⟨h1, by simp [printPath, h2], h3⟩

/-- The result of the loop on a printed list. -/
def loopResult (es : List Entry) (acc : List Path) (m : Option Ident) : Except Err Args :=
  if (m.toList ++ markersOf es).length ≤ 1 then
    .ok ⟨acc ++ traitsOf es, (m.toList ++ markersOf es).head?⟩
  else .error .dupMarkerArg

theorem loopResult_trait (p : Path) (es : List Entry) (acc : List Path) (m : Option Ident) :
    loopResult (.trait p :: es) acc m = loopResult es (acc ++ [p]) m := by
  simp [loopResult, markersOf, traitsOf]

theorem loopResult_marker (i : Ident) (es : List Entry) (acc : List Path) :
    loopResult (.marker i :: es) acc none = loopResult es acc (some i) := by
  simp [loopResult, markersOf, traitsOf]

theorem loopResult_dup (i : Ident) (es : List Entry) (acc : List Path) (j : Ident) :
    loopResult (.marker i :: es) acc (some j) = .error .dupMarkerArg := by
  simp [loopResult, markersOf]

theorem printPath_ne_nil {p : Path} (hp : p.segs ≠ []) : ∃ t ts, printPath p = t :: ts := by
  obtain ⟨lead, segs⟩ := p
  cases lead
  · match segs, hp with
    | [⟨s, none⟩], _ => exact ⟨_, _, rfl⟩
    | [⟨s, some a⟩], _ => exact ⟨_, _, rfl⟩
    | ⟨s, none⟩ :: t :: ss, _ => exact ⟨_, _, rfl⟩
    | ⟨s, some a⟩ :: t :: ss, _ => exact ⟨_, _, rfl⟩
  · exact ⟨_, _, rfl⟩

/-- A printed path is not mistaken for a `marker = ..` entry. -/
theorem printPath_second {p : Path} (hp : p.segs ≠ []) {rest : List Tok} (hr : rest.head? ≠ some .eq)
    (t : Tok) (ts : List Tok) : printPath p ++ rest ≠ t :: .eq :: ts := by
  obtain ⟨lead, segs⟩ := p
  intro h
  cases lead <;> match segs, hp with
    | [⟨s, none⟩], _ =>
      simp [printPath, printSegs, printSeg] at h
      try (obtain ⟨_, rfl⟩ := h; simp at hr)
    | [⟨s, some a⟩], _ => simp [printPath, printSegs, printSeg] at h
    | ⟨s, none⟩ :: t :: ss, _ => simp [printPath, printSegs, printSeg] at h
    | ⟨s, some a⟩ :: t :: ss, _ => simp [printPath, printSegs, printSeg] at h

theorem loop_trait {p : Path} (hp : p.segs ≠ []) {rest : List Tok} (hs : Stop rest)
    (hr : rest.head? ≠ some .eq) (n : Nat) (acc : List Path) (m : Option Ident) :
    parseArgsLoop (n + 1) (printPath p ++ rest) acc m =
      match rest with
      | [] => .ok ⟨acc ++ [p], m⟩
      | .comma :: rest => parseArgsLoop n rest (acc ++ [p]) m
      | _ => .error .argParse := by
  have hpp := parsePath_print p hp rest hs
  have h2 := printPath_second hp hr
  obtain ⟨t, ts, hts⟩ := printPath_ne_nil hp
  generalize hq : printPath p ++ rest = q at *
  match q, hq with
  | t' :: q', hq =>
    conv => lhs; unfold parseArgsLoop
    split
    · rename_i heq
      exact absurd heq (h2 _ _)
    · rename_i heq
      exact absurd heq (h2 _ _)
    · rw [hpp]
      match rest with
      | [] => rfl
      | .comma :: _ => rfl
      | .ident _ :: _ => rfl
      | .eq :: _ => rfl
      | .other _ :: _ => rfl
      | .colon2 :: _ => rfl
      | .angle _ :: _ => rfl
  | [], hq => simp [hts] at hq

theorem loop_print (tr : Bool) : ∀ (es : List Entry), (∀ e ∈ es, e.Ok) → ∀ n acc m,
    (printEntries tr es).length ≤ n →
    parseArgsLoop n (printEntries tr es) acc m = loopResult es acc m
  | [], _, n, acc, m, _ => by
    cases n <;> cases m <;> simp [printEntries, parseArgsLoop, loopResult, markersOf, traitsOf]
  | [.trait p], hok, n, acc, m, hn => by
    have hp : p.segs ≠ [] := hok (.trait p) (by simp)
    obtain ⟨t, ts, hts⟩ := printPath_ne_nil hp
    simp only [printEntries, printEntry] at hn ⊢
    match n, hn with
    | 0, hn => simp [hts] at hn
    | n + 1, hn =>
      rw [loopResult_trait]
      cases tr
      · simp only [Bool.false_eq_true, if_false]
        rw [loop_trait (rest := []) hp trivial (by simp)]
        cases m <;> simp [loopResult, markersOf, traitsOf]
      · simp only [if_true]
        rw [loop_trait (rest := [.comma]) hp trivial (by simp)]
        cases n <;> cases m <;> simp [loopResult, markersOf, traitsOf, parseArgsLoop]
  | .trait p :: f :: es, hok, n, acc, m, hn => by
    have hp : p.segs ≠ [] := hok (.trait p) (by simp)
    obtain ⟨t, ts, hts⟩ := printPath_ne_nil hp
    simp only [printEntries, printEntry] at hn ⊢
    match n, hn with
    | 0, hn => simp [hts] at hn
    | n + 1, hn =>
      rw [loopResult_trait,
        loop_trait (rest := .comma :: printEntries tr (f :: es)) hp trivial (by simp)]
      refine loop_print tr (f :: es) (fun e he => hok e (by simp [he])) n _ _ ?_
      simp [hts] at hn
      omega
  | [.marker i], hok, n, acc, m, hn => by
    simp only [printEntries, printEntry] at hn ⊢
    match n, hn with
    | 0, hn => simp at hn
    | n + 1, hn =>
      cases m with
      | some j => rw [loopResult_dup]; simp [parseArgsLoop]
      | none =>
        rw [loopResult_marker]
        cases tr
        · simp [parseArgsLoop, loopResult, markersOf, traitsOf]
        · cases n <;> simp [parseArgsLoop, loopResult, markersOf, traitsOf]
  | .marker i :: f :: es, hok, n, acc, m, hn => by
    simp only [printEntries, printEntry] at hn ⊢
    match n, hn with
    | 0, hn => simp at hn
    | n + 1, hn =>
      cases m with
      | some j => rw [loopResult_dup]; simp [parseArgsLoop]
      | none =>
        rw [loopResult_marker]
        simp only [List.cons_append, List.nil_append]
        rw [parseArgsLoop]
        simp only [Option.isSome_none, Bool.false_eq_true, if_false]
        refine loop_print tr (f :: es) (fun e he => hok e (by simp [he])) n _ _ ?_
        simp at hn
        omega

theorem loop_sound : ∀ n toks acc m a, parseArgsLoop n toks acc m = .ok a →
    ∃ es tr, (∀ e ∈ es, e.Ok) ∧ toks = printEntries tr es ∧ loopResult es acc m = .ok a := by
  intro n
  induction n with
  | zero =>
    intro toks acc m a h
    match toks with
    | [] =>
      refine ⟨[], false, by simp, rfl, ?_⟩
      rw [← h]; cases m <;> simp [parseArgsLoop, loopResult, markersOf, traitsOf]
    | _ :: _ => simp [parseArgsLoop] at h
  | succ n ih =>
    intro toks acc m a h
    match toks with
    | [] =>
      refine ⟨[], false, by simp, rfl, ?_⟩
      rw [← h]; cases m <;> simp [parseArgsLoop, loopResult, markersOf, traitsOf]
    | t :: ts =>
      unfold parseArgsLoop at h
      split at h
      · rename_i i rest heq
        cases m with
        | some j => simp at h
        | none =>
          simp only [Option.isSome_none, Bool.false_eq_true, if_false] at h
          rw [heq]
          match rest, h with
          | [], h =>
            refine ⟨[.marker i], false, by simp [Entry.Ok], by simp [printEntries, printEntry], ?_⟩
            rw [← h]; simp [loopResult, markersOf, traitsOf]
          | .comma :: rest, h =>
            simp only at h
            obtain ⟨es, tr, h1, h2, h3⟩ := ih _ _ _ _ h
            match es with
            | [] =>
              refine ⟨[.marker i], true, by simp [Entry.Ok], ?_, ?_⟩
              · simp [printEntries] at h2; simp [h2, printEntries, printEntry]
              · rw [loopResult_marker, h3]
            | e :: es =>
              refine ⟨.marker i :: e :: es, tr, ?_, ?_, ?_⟩
              · intro x hx
                rcases List.mem_cons.mp hx with rfl | hx
                · trivial
                · exact h1 x hx
              · simp [h2, printEntries, printEntry]
              · rw [loopResult_marker, h3]
          | .ident _ :: _, h => simp at h
          | .eq :: _, h => simp at h
          | .other _ :: _, h => simp at h
          | .colon2 :: _, h => simp at h
          | .angle _ :: _, h => simp at h
      · simp at h
      · split at h
        · simp at h
        · rename_i p hpp
          obtain ⟨h1, h2, _⟩ := parsePath_sound hpp
          refine ⟨[.trait p], false, by simp [Entry.Ok, h1], ?_, ?_⟩
          · simpa [printEntries, printEntry] using h2
          · rw [← h]; cases m <;> simp [loopResult, markersOf, traitsOf]
        · rename_i p rest hpp
          obtain ⟨hp1, hp2, _⟩ := parsePath_sound hpp
          obtain ⟨es, tr, h1, h2, h3⟩ := ih _ _ _ _ h
          match es with
          | [] =>
            refine ⟨[.trait p], true, by simp [Entry.Ok, hp1], ?_, ?_⟩
            · simp [printEntries] at h2; simp [hp2, h2, printEntries, printEntry]
            · rw [loopResult_trait, h3]
          | e :: es =>
            refine ⟨.trait p :: e :: es, tr, ?_, ?_, ?_⟩
            · intro x hx
              rcases List.mem_cons.mp hx with rfl | hx
              · exact hp1
              · exact h1 x hx
            · simp [hp2, h2, printEntries, printEntry]
            · rw [loopResult_trait, h3]
        · simp at h

theorem parseArgs_print (tr : Bool) (es : List Entry) (h : ∀ e ∈ es, e.Ok) :
    parseArgs (printEntries tr es) = loopResult es [] none :=
  loop_print tr es h _ _ _ (Nat.le_refl _)

theorem parseArgs_iff (toks : List Tok) (args : List Path) (m : Option Ident) :
    parseArgs toks = .ok ⟨args, m⟩ ↔ IsArgs toks args m := by
  constructor
  · intro h
    obtain ⟨es, tr, h1, h2, h3⟩ := loop_sound _ _ _ _ _ h
    refine ⟨es, tr, h1, h2, ?_⟩
    unfold loopResult at h3
    split at h3
    · rename_i hl
      simp only [Option.toList_none, List.nil_append, Except.ok.injEq, Args.mk.injEq] at h3 hl
      refine ⟨h3.1.symm, ?_⟩
      rw [← h3.2]
      match hm : markersOf es, hl with
      | [], _ => rfl
      | [x], _ => rfl
    · cases h3
  · rintro ⟨es, tr, h1, rfl, rfl, h3⟩
    rw [parseArgs_print tr es h1, loopResult]
    cases m <;> simp_all

end AutoEnums
