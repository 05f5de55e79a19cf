import Verif.Spec.Rounding
import Verif.Spec.Exact

/-!
# The float operations of the run functions in an arithmetic with rounding errors
-/

namespace Verif.Spec

open H5IO

variable {u : ℝ} {R : Rounded u}

instance : Zero (Rd R) := ⟨⟨0⟩⟩

/-- every operation has the errors of `R`; step numbers and comparisons are exact -/
noncomputable instance rdOps : FloatOps (Rd R) where
  ofInt z := ⟨z⟩
  add x y := ⟨R.add x.val y.val⟩
  sub x y := ⟨R.sub x.val y.val⟩
  mul x y := ⟨R.mul x.val y.val⟩
  div x y := if y.val = 0 then .error .zeroDivisionError else .ok ⟨R.div x.val y.val⟩
  le x y := decide (x.val ≤ y.val)
  lt x y := decide (x.val < y.val)
  eq x y := decide (x.val = y.val)
  toInt x := .ok (truncZ x.val)
  round x := .ok (roundEven x.val)
  round4 x := ⟨R.div (roundEven (x.val * 10 ^ 4)) (10 ^ 4)⟩

end Verif.Spec
