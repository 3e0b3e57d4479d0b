import Verif.Model.Utils

/-! The bit-permutation generator on all 16-bit values (a finite check by the kernel). -/

namespace Poker

/-- `get_next` on `a 0 1…1 0…0` gives the value of `next_least`. -/
def nextOK (m k a : Nat) : Bool :=
  match BitSequence.get_next
      ⟨BitVec.ofNat 16 (2 ^ (m + k + 1) * a + (2 ^ (m + k) - 2 ^ m)), 0, 0⟩ with
  | .ok (v, _) => v.toNat == 2 ^ (m + k + 1) * a + (2 ^ (m + k) + (2 ^ (k - 1) - 1))
  | .error _ => false

set_option maxRecDepth 100000 in
theorem check_next : (List.range 15).all (fun m => (List.range 15).all (fun k =>
    if 1 ≤ k ∧ m + k ≤ 14 then
      (List.range (2 ^ (14 - (m + k)) / 64 + 1)).all (fun b => (List.range 64).all (fun c =>
        if 64 * b + c < 2 ^ (14 - (m + k)) then nextOK m k (64 * b + c) else true))
    else true)) = true := by
  decide +kernel

end Poker
