import Verif.Context

/-! # Generated names are injective -/

namespace AutoEnums

theorem toString_inj {a b : Nat} (h : toString a = toString b) : a = b := by
  have h1 : (toString a).toList = (toString b).toList := by rw [h]
  simp only [Nat.toString_eq_ofList_toDigits, String.toList_ofList] at h1
  rw [← Nat.ofDigitChars_ten_toDigits (n := a), h1, Nat.ofDigitChars_ten_toDigits]

theorem prefix_inj {p : String} {a b : Nat} (h : p ++ toString a = p ++ toString b) : a = b := by
  apply toString_inj
  have := congrArg String.toList h
  simp only [String.toList_append] at this
  exact String.toList_inj.mp (List.append_cancel_left this)

theorem variantIdent_inj {a b : Nat} : variantIdent a = variantIdent b ↔ a = b :=
  ⟨prefix_inj, fun h => by rw [h]⟩

theorem enumIdent_inj {a b : Nat} : enumIdent a = enumIdent b ↔ a = b :=
  ⟨prefix_inj, fun h => by rw [h]⟩

theorem nodup_variants (n : Nat) : ((List.range n).map variantIdent).Nodup :=
  List.Pairwise.map _ (fun _ _ h e => h (variantIdent_inj.mp e)) List.nodup_range

end AutoEnums
