import Verif.Spec.Visible
import Verif.Lemmas.Converge

/-! # Lemmas on visible attributes -/

namespace AutoEnums

open Spec

theorem hidesCode_eq (k : Kind) : hidesCode k = k.isOpaque := by cases k <;> rfl

theorem named_iff (s : String) (a : Attr) : named s a = a.is s := by
  unfold named Attr.is Path.isIdent
  rcases a with ⟨⟨l, segs⟩, f⟩
  dsimp only
  split
  · rename_i i
    rw [Bool.eq_iff_iff]
    simp
  · rename_i h
    rw [beq_eq_false_iff_ne]
    intro he
    cases he
    exact h s rfl rfl

theorem any_named (s : String) (as : List Attr) : as.any (named s) = anyAttr as s := by
  unfold anyAttr
  congr 1
  funext a
  exact named_iff s a

theorem hasAttr_mk (s : String) (k : Kind) (as : List Attr) (ks : List Node) :
    hasAttr s (.mk k as ks) = (anyAttr as s || (!k.isOpaque && hasAttrL s ks)) := by
  simp only [hasAttr, hasAttrL, visible, List.any_cons, any_named, hidesCode_eq]
  cases k.isOpaque <;> simp

@[simp] theorem hasAttrL_nil (s : String) : hasAttrL s [] = false := rfl

@[simp] theorem hasAttrL_cons (s : String) (n : Node) (ns : List Node) :
    hasAttrL s (n :: ns) = (hasAttr s n || hasAttrL s ns) := by
  simp [hasAttrL, hasAttr, visibleL]

theorem hasAttrL_mem {s : String} {ns : List Node} (h : hasAttrL s ns = false) :
    ∀ n ∈ ns, hasAttr s n = false := by
  induction ns with
  | nil => simp
  | cons a l ih =>
    simp only [hasAttrL_cons, Bool.or_eq_false_iff] at h
    intro n hn
    rcases List.mem_cons.mp hn with rfl | hn
    · exact h.1
    · exact ih h.2 n hn

theorem attrs_any {n : Node} {s : String} (h : hasAttr s n = false) : n.anyAttr s = false := by
  have top : ∀ k as ks, hasAttr s (.mk k as ks) = false →
      anyAttr (if k.hasAttrs = true then as else []) s = false := by
    intro k as ks h
    rw [hasAttr_mk, Bool.or_eq_false_iff] at h
    split
    · exact h.1
    · rfl
  induction n using Node.ind with
  | h k as ks ih =>
    unfold Node.anyAttr
    rw [Node.attrs.eq_def]
    split
    · rename_i b as' e heq
      obtain ⟨rfl, rfl, rfl⟩ := Node.mk.inj heq
      rw [hasAttr_mk] at h
      simp only [Kind.isOpaque, Bool.not_false, Bool.true_and, Bool.or_eq_false_iff,
        hasAttrL_cons] at h
      exact ih e (by simp) h.2.1
    · rename_i heq
      obtain ⟨rfl, rfl, rfl⟩ := Node.mk.inj heq
      exact top _ _ _ h

theorem hasAttr_none {n : Node} {s : String} (h : hasAttr s n = false) :
    n.findRemoveAttr s = none := Node.findRemoveAttr_none (attrs_any h)

theorem hasAttr_kids {n : Node} {s : String} (h : hasAttr s n = false)
    (ho : n.kind.isOpaque = false) : ∀ c ∈ n.kids, hasAttr s c = false := by
  cases n with
  | mk k as ks =>
    rw [hasAttr_mk] at h
    simp only [Node.kind] at ho
    simp only [ho, Bool.not_false, Bool.true_and, Bool.or_eq_false_iff] at h
    exact hasAttrL_mem h.2

theorem mapA_id {σ : Type} {f : σ → Node → σ × Node} {s : σ} {l : List Node}
    (h : ∀ c ∈ l, f s c = (s, c)) : mapA f s l = (s, l) := by
  induction l with
  | nil => rfl
  | cons a l ih =>
    simp only [mapA, h a (by simp), ih fun c hc => h c (by simp [hc])]

theorem walk_id {σ : Type} {f : σ → Node → σ × Node} {s : σ} {n : Node}
    (h : n.kind.isOpaque = false → ∀ c ∈ n.kids, f s c = (s, c)) : walk f s n = (s, n) := by
  cases n with
  | mk k as ks =>
    simp only [walk]
    split
    · rfl
    · rename_i ho
      have h1 : mapA f s ks = (s, ks) := mapA_id (h (by simpa [Node.kind] using ho))
      rw [h1]

end AutoEnums
