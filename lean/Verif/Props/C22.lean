import Verif.Lemmas.Args
import Verif.Visitor

/-! # C22: parsing of the argument list -/

namespace AutoEnums

open Spec

/-- C22: a token list is accepted, with the given traits and marker, iff it is the printed form of a
comma-separated list (with an optional trailing comma) of those traits in that order and at most one
`marker = name` entry at any position.  In particular missing commas are rejected. -/
theorem C22_parse_iff (toks : List Tok) (traits : List Path) (marker : Option Ident) :
    parseArgs toks = .ok ⟨traits, marker⟩ ↔ IsArgs toks traits marker :=
  parseArgs_iff toks traits marker

/-- C22: printing and parsing is the identity on lists with at most one marker. -/
theorem C22_round_trip (trailing : Bool) (es : List Entry) (hok : ∀ e ∈ es, e.Ok)
    (hm : (markersOf es).length ≤ 1) :
    parseArgs (printEntries trailing es) = .ok ⟨traitsOf es, (markersOf es).head?⟩ := by
  rw [parseArgs_print trailing es hok, loopResult]
  simp [hm]

/-- C22: a second marker entry is rejected with the `duplicate marker` error, and so is the whole
attribute. -/
theorem C22_second_marker (trailing : Bool) (es : List Entry) (hok : ∀ e ∈ es, e.Ok)
    (hm : 2 ≤ (markersOf es).length) (env : Env) (fuel h : Nat) (input : Input) :
    parseArgs (printEntries trailing es) = .error .dupMarkerArg ∧
    autoEnum env fuel h (printEntries trailing es) input = .errors [.dupMarkerArg] := by
  have h1 : parseArgs (printEntries trailing es) = .error .dupMarkerArg := by
    rw [parseArgs_print trailing es hok, loopResult]
    have : ¬ (markersOf es).length ≤ 1 := by omega
    simp [this]
  exact ⟨h1, by simp [autoEnum, Cx.new, h1]⟩

/-- `Iterator, marker = m, ::core::ops::Fn<..>,` -/
example : IsArgs
    [.ident "Iterator", .comma, .ident "marker", .eq, .ident "m", .comma,
      .colon2, .ident "core", .colon2, .ident "ops", .colon2, .ident "Fn", .angle "<A>", .comma]
    [.ofIdents ["Iterator"], ⟨true, [⟨"core", none⟩, ⟨"ops", none⟩, ⟨"Fn", some "<A>"⟩]⟩]
    (some "m") := by
  refine ⟨[.trait (.ofIdents ["Iterator"]), .marker "m",
    .trait ⟨true, [⟨"core", none⟩, ⟨"ops", none⟩, ⟨"Fn", some "<A>"⟩]⟩], true, ?_, rfl, rfl, rfl⟩
  simp [Entry.Ok, Path.ofIdents]

/-- `marker = a, Iterator, marker = b` -/
example : ∃ es : List Entry, (∀ e ∈ es, e.Ok) ∧ 2 ≤ (markersOf es).length :=
  ⟨[.marker "a", .trait (.ofIdents ["Iterator"]), .marker "b"], by simp [Entry.Ok, Path.ofIdents],
    by simp [markersOf]⟩

end AutoEnums
