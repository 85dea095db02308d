import Verif.Model.Basic
/-! Order lemmas for strings and rationals. -/
namespace Firm

theorem strCmp_eq_swap (a b : Str) : strCmp a b = (strCmp b a).swap :=
  Std.OrientedCmp.eq_swap

theorem strCmp_isLE_trans {a b c : Str} (h1 : (strCmp a b).isLE) (h2 : (strCmp b c).isLE) :
    (strCmp a c).isLE := Std.TransCmp.isLE_trans h1 h2

theorem strCmp_refl (a : Str) : strCmp a a = .eq := Std.ReflCmp.compare_self

theorem strCmp_eq_iff {a b : Str} : strCmp a b = .eq ↔ a = b := by
  constructor
  · intro h; exact Std.LawfulEqCmp.eq_of_compare h
  · rintro rfl; exact strCmp_refl a

theorem strCmp_lt_trans {a b c : Str} (h1 : strCmp a b = .lt) (h2 : strCmp b c = .lt) :
    strCmp a c = .lt := Std.TransCmp.lt_trans h1 h2

theorem strCmp_le_total (a b : Str) : (strCmp a b).isLE || (strCmp b a).isLE := by
  rw [strCmp_eq_swap b a]; cases strCmp a b <;> rfl

theorem strCmp_lt_irrefl (a : Str) : strCmp a a ≠ .lt := by rw [strCmp_refl]; decide

end Firm
