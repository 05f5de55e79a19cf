import Mathlib.Data.ZMod.Basic

/-!
# Specification: periodic neighbours of an index
-/

namespace Verif.Spec

/-- next index on a ring of `n` points -/
def up (n i : ℕ) : ℕ := (i + 1) % n

/-- previous index on a ring of `n` points -/
def down (n i : ℕ) : ℕ := (i + (n - 1)) % n

end Verif.Spec
