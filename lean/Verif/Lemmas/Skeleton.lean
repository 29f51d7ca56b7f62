import Verif.Lemmas.Tree
import Verif.Spec.Edit

/-! # Edits preserve user code -/

namespace AutoEnums.Spec

def skeletonL (M : String → Bool) (ns : List Node) : List Kind :=
  ((labelsL ns).map (·.1)).filterMap (content M)

theorem skeleton_mk (M : String → Bool) (k : Kind) (as : List Attr) (ks : List Node) :
    skeleton M (.mk k as ks) = (content M k).toList ++ skeletonL M ks := by
  simp only [skeleton, skeletonL, labels_mk, List.map_cons, List.filterMap_cons]
  cases content M k <;> rfl

theorem skeletonL_nil (M : String → Bool) : skeletonL M [] = [] := rfl

theorem skeletonL_cons (M : String → Bool) (n : Node) (ns : List Node) :
    skeletonL M (n :: ns) = skeleton M n ++ skeletonL M ns := by
  simp [skeleton, skeletonL]

theorem skeletonL_append (M : String → Bool) (a b : List Node) :
    skeletonL M (a ++ b) = skeletonL M a ++ skeletonL M b := by
  simp [skeletonL]

/-- Constructors belong to generated enums and only markers are replaced. -/
structure Allow.Sane (A : Allow) (M : String → Bool) : Prop where
  wraps : ∀ en, A.wraps en → ∃ h : Nat, en = "__Enum" ++ toString h
  tries : ∀ en, A.tries en → ∃ h : Nat, en = "__Enum" ++ toString h
  marks : ∀ en m, A.marks en m → M m = true ∧ ∃ h : Nat, en = "__Enum" ++ toString h

theorem prefix_self (p s : String) : p.toList.isPrefixOf (p ++ s).toList = true := by
  simp [String.toList_append]

theorem synthetic_variant {en vn : Ident} (h : ∃ h : Nat, en = "__Enum" ++ toString h)
    (hv : IsVariant vn) : isSynthetic (variantPath en vn) = true := by
  obtain ⟨h, rfl⟩ := h
  obtain ⟨i, rfl⟩ := hv
  have h1 := prefix_self "__Enum" (toString h)
  have h2 := prefix_self "__Variant" (toString i)
  simp only [variantPath, isSynthetic, h1, h2, Bool.and_self]

theorem skeleton_construct {M : String → Bool} {as : List Attr} {en vn : Ident} (e : Node)
    (h : ∃ h : Nat, en = "__Enum" ++ toString h) (hv : IsVariant vn) :
    skeleton M (construct as en vn e) = skeleton M e := by
  simp [construct, skeleton_mk, skeletonL_cons, skeletonL_nil, content, synthetic_variant h hv]

theorem Step.skeleton {A : Allow} {M : String → Bool} (hA : A.Sane M) {n n' : Node}
    (h : Step A n n') : skeleton M n' = skeleton M n := by
  induction h with
  | wrapVal hw hv _ =>
    simp only [skeleton_mk, skeletonL_cons, skeleton_construct _ (hA.wraps _ hw) hv]
  | wrapArm hw hv _ =>
    simp only [skeleton_mk, skeletonL_cons, skeletonL_append, skeleton_construct _ (hA.wraps _ hw) hv]
  | wrapBlock hw hv hk =>
    rw [skeleton_mk, skeleton_mk, skeletonL_cons, skeleton_mk, skeletonL_cons,
      skeleton_construct _ (hA.wraps _ hw) hv, skeleton_mk]
    simp [content, skeletonL_nil]
  | unit hw hv hk =>
    rw [skeleton_mk, skeleton_mk, skeletonL_cons,
      skeleton_construct _ (hA.wraps _ hw) hv, skeleton_mk]
    simp [content, skeletonL_nil]
  | mark hm hv =>
    obtain ⟨h1, h2⟩ := hA.marks _ _ hm
    rw [skeleton_construct _ h2 hv, skeleton_mk]
    simp [content, h1, skeletonL_nil, skeletonL_cons]
  | tryOp hw hv =>
    simp only [tryMatch, skeleton_mk, skeletonL_cons, skeletonL_nil, content,
      skeleton_construct _ (hA.tries _ hw) hv]
    simp [isSynthetic]
  | dropAttr => simp [skeleton_mk]
  | dropType => simp [skeleton_mk, content]
  | enumExpr g e => simp [skeleton_mk, content, skeletonL_nil, skeletonL_cons, enumStmt]
  | enumFn g => simp [skeleton_mk, content, skeletonL_nil, skeletonL_cons, enumStmt]
  | kid hk _ ih => simp [skeleton_mk, skeletonL_append, skeletonL_cons, ih]

theorem Edit.skeleton {A : Allow} {M : String → Bool} (hA : A.Sane M) {n n' : Node}
    (h : Edit A n n') : skeleton M n' = skeleton M n := by
  induction h with
  | refl => rfl
  | step _ hs ih => rw [hs.skeleton hA, ih]

theorem foreignL_cons (M : String → Bool) (n : Node) (ns : List Node) :
    foreignL M (n :: ns) = foreign M n ++ foreignL M ns := by rw [foreignL]

theorem foreignL_nil (M : String → Bool) : foreignL M [] = [] := by rw [foreignL]

theorem foreignL_append (M : String → Bool) (a b : List Node) :
    foreignL M (a ++ b) = foreignL M a ++ foreignL M b := by
  induction a with
  | nil => simp [foreignL_nil]
  | cons n ns ih => simp [foreignL_cons, ih]

theorem foreign_mk {M : String → Bool} {k : Kind} (hk : k.isOpaque = false) (as : List Attr)
    (ks : List Node) : foreign M (.mk k as ks) = foreignL M ks := by
  cases k <;> first | (simp [Kind.isOpaque] at hk; done) | (rw [foreign.eq_def])

theorem foreign_construct (M : String → Bool) (as : List Attr) (en vn : Ident) (e : Node) :
    foreign M (construct as en vn e) = foreign M e := by
  rw [construct, foreign_mk rfl, foreignL_cons, foreignL_cons, foreign_mk rfl]
  simp [foreignL_nil]

theorem foreign_attrs (M : String → Bool) (k : Kind) (as as' : List Attr) (ks : List Node) :
    foreign M (.mk k as ks) = foreign M (.mk k as' ks) := by
  rw [foreign.eq_def, foreign.eq_def]

theorem foreign_enum (M : String → Bool) (g : GenEnum) : foreign M (enumStmt g) = [] := by
  rw [enumStmt, foreign]

theorem Step.foreign {A : Allow} {M : String → Bool} (hA : A.Sane M) {n n' : Node}
    (h : Step A n n') : foreign M n' = foreign M n := by
  induction h with
  | wrapVal hw hv hk =>
    have hk' : ∀ k : Kind, (k = .eReturn ∨ ∃ l, k = .eBreak l) → k.isOpaque = false := by
      rintro k (rfl | ⟨l, rfl⟩) <;> rfl
    rw [foreign_mk (hk' _ hk), foreign_mk (hk' _ hk), foreignL_cons, foreignL_cons,
      foreign_construct]
  | wrapArm hw hv _ =>
    rw [foreign_mk rfl, foreign_mk rfl]
    simp only [foreignL_append, foreignL_cons, foreign_construct]
  | wrapBlock hw hv hk =>
    have hk' : ∀ k : Kind, (k = .block ∨ ∃ l, k = .eBlock l) → k.isOpaque = false := by
      rintro k (rfl | ⟨l, rfl⟩) <;> rfl
    rw [foreign_mk (hk' _ hk), foreign_mk (hk' _ hk), foreignL_cons, foreign_mk rfl, foreignL_cons,
      foreign_construct, foreign_mk rfl]
    simp [foreignL_nil]
  | unit hw hv hk =>
    have hk' : ∀ k : Kind, (k = .eReturn ∨ ∃ l, k = .eBreak l) → k.isOpaque = false := by
      rintro k (rfl | ⟨l, rfl⟩) <;> rfl
    rw [foreign_mk (hk' _ hk), foreign_mk (hk' _ hk), foreignL_cons,
      foreign_construct, foreign_mk rfl]
    simp [foreignL_nil]
  | mark hm hv =>
    rw [foreign_construct]
    conv => rhs; rw [Spec.foreign]
    simp [(hA.marks _ _ hm).1, foreignL_nil, foreignL_cons]
  | tryOp hw hv =>
    simp only [tryMatch]
    rw [foreign_mk rfl, foreign_mk rfl]
    simp only [foreignL_cons, foreignL_nil]
    rw [foreign_mk rfl, foreign_mk rfl]
    simp only [foreignL_cons, foreignL_nil]
    rw [foreign_mk rfl, foreign_mk rfl]
    simp only [foreignL_cons, foreignL_nil]
    rw [foreign_mk rfl]
    simp only [foreignL_cons, foreignL_nil]
    rw [foreign_mk rfl]
    simp only [foreignL_cons, foreignL_nil]
    rw [foreign_mk rfl]
    simp only [foreignL_cons, foreignL_nil]
    rw [foreign_construct, foreign_mk rfl, foreign_mk rfl]
    simp [foreignL_nil]
  | dropAttr => exact foreign_attrs M _ _ _ _
  | dropType => rw [foreign_mk rfl, foreign_mk rfl]
  | enumExpr g e =>
    rw [foreign_mk rfl, foreignL_cons, foreignL_cons, foreign_enum, foreign_mk rfl, foreignL_cons]
    simp [foreignL_nil]
  | enumFn g =>
    rw [foreign_mk rfl, foreign_mk rfl, foreignL_cons, foreignL_cons, foreign_mk rfl,
      foreign_mk rfl, foreignL_cons, foreign_enum]
    simp
  | kid hk _ ih =>
    rw [foreign_mk hk, foreign_mk hk]
    simp [foreignL_append, foreignL_cons, ih]

theorem Edit.foreign {A : Allow} {M : String → Bool} (hA : A.Sane M) {n n' : Node}
    (h : Edit A n n') : foreign M n' = foreign M n := by
  induction h with
  | refl => rfl
  | step _ hs ih => rw [hs.foreign hA, ih]

end AutoEnums.Spec
