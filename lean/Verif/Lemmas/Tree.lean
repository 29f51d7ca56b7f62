import Verif.Spec.Tree

/-! # Lemmas about `labels` -/

namespace AutoEnums.Spec

@[simp] theorem labels_mk (k : Kind) (as : List Attr) (ks : List Node) :
    labels (.mk k as ks) = (k, as) :: labelsL ks := by rw [labels]

@[simp] theorem labelsL_nil : labelsL [] = [] := by rw [labelsL]

@[simp] theorem labelsL_cons (n : Node) (ns : List Node) :
    labelsL (n :: ns) = labels n ++ labelsL ns := by rw [labelsL]

@[simp] theorem labelsL_append (a b : List Node) :
    labelsL (a ++ b) = labelsL a ++ labelsL b := by
  induction a with
  | nil => simp
  | cons n ns ih => simp [ih]

@[simp] theorem weigh_mk (w : Label → Nat) (k : Kind) (as : List Attr) (ks : List Node) :
    weigh w (.mk k as ks) = w (k, as) + weighL w ks := by
  simp [weigh, weighL]

@[simp] theorem weighL_nil (w : Label → Nat) : weighL w [] = 0 := by simp [weighL]

@[simp] theorem weighL_cons (w : Label → Nat) (n : Node) (ns : List Node) :
    weighL w (n :: ns) = weigh w n + weighL w ns := by simp [weigh, weighL]

@[simp] theorem weighL_append (w : Label → Nat) (a b : List Node) :
    weighL w (a ++ b) = weighL w a + weighL w b := by simp [weighL]

theorem mem_labelsL {l : Label} {ns : List Node} :
    l ∈ labelsL ns ↔ ∃ n ∈ ns, l ∈ labels n := by
  induction ns with
  | nil => simp
  | cons n ns ih => simp [ih]

end AutoEnums.Spec
