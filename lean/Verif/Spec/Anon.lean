import Verif.Spec.Rename

/-!
# Specification: the names of the enums (C74)
-/

namespace AutoEnums.Spec

/-- Gives all enums the same name: identifiers that begin with `__Enum` become `__Enum0`, all other text stays. -/
def anon : Respelling where
  text t := t
  label l := l
  mac m := m
  ident i := if "__Enum".toList.isPrefixOf i.toList then "__Enum0" else i

end AutoEnums.Spec
