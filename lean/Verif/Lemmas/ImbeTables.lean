import Verif.Spec.Params
import Verif.Gen.Imbe

/-!
# Facts about the IMBE tables, by evaluation over the whole tables
-/

namespace Verif.Spec
open Verif.Gen

theorem bo_shape : ∀ n < 48, (bo.getD n []).length = 79 ∧
    (bo.getD n []).all (fun e => e.length == 2 && e.getD 0 0 < 58 && e.getD 1 0 < 12) = true := by decide +kernel

theorem bo_length : bo.length = 48 := by decide +kernel

theorem bo_perm : ∀ n < 48, (boCodes (n + 9)).isPerm (fieldCodes (n + 9)) = true := by decide +kernel

theorem rowBits_le : ∀ n < 48, ∀ r < 58, rowBits (n + 9) r ≤ 12 := by decide +kernel

theorem fieldCodes_nodup : ∀ n < 48, (fieldCodes (n + 9)).Nodup := by decide +kernel

theorem ba_shape : ∀ n < 48, (ba.getD n []).length = 5 ∧
    (ba.getD n []).all (fun e => e.length == 2 && (List.range 11).any fun b => e.getD 0 0 == (b : Int) * 1000000) = true := by
  decide +kernel

theorem ba_length : ba.length = 48 := by decide +kernel

theorem hoba_shape : ∀ n < 48, (hoba.getD n []).length = 50 ∧ (hoba.getD n []).all (fun b => b ≤ 11) = true := by
  decide +kernel

theorem hoba_length : hoba.length = 48 := by decide +kernel

theorem ji_shape : ∀ n < 48, (ImbeJi.getD n []).length = 6 ∧ (ImbeJi.getD n []).all (fun j => 1 ≤ j ∧ j ≤ 10) = true ∧
    (ImbeJi.getD n []).sum = n + 9 := by decide +kernel

theorem ji_length : ImbeJi.length = 48 := by decide +kernel

theorem quantstep_length : quantstep.length = 11 := by decide
theorem standdev_length : standdev.length = 9 := by decide
theorem B2_length : B2.length = 64 := by decide

theorem mem_fieldCodes {L r c : Nat} (hr : r < 58) (hc : c < rowBits L r) : code r c ∈ fieldCodes L := by
  unfold fieldCodes
  exact List.mem_flatMap.mpr ⟨r, List.mem_range.mpr hr, List.mem_map.mpr ⟨c, List.mem_range.mpr hc, rfl⟩⟩

end Verif.Spec
