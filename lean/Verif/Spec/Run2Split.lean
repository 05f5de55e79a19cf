import Verif.Spec.Run2

/-!
# Vocabulary for C47
-/

namespace Verif

open H5IO H5 Run Run2

variable {α β : Type}

/-- the same call with another `end_time` -/
def Run2.Args2.until (a : Args2 α) (T : α) : Args2 α := { a with end_time := T }

/-- the call that continues the file until time `T` -/
def Run2.Args2.continued (a : Args2 α) (T : α) : Args2 α :=
  { a with end_time := T, continue_file := true, force_recompute := false }

/-- the two states agree in density, vorticity, potential and age -/
def SameFields (s s' : NS (Cell α)) : Prop :=
  ∀ k ∈ ["density", "omega", "phi", "age"], s.get? k = s'.get? k

/-- a state with the given fields, as `continue_h5_file` builds it -/
def fieldState (d o p : Arr α) (t : α) : NS (Cell α) :=
  [("density", .arr d), ("omega", .arr o), ("phi", .arr p), ("age", .num t)]

/-- A simulation on an `n × n` grid whose steps depend only on density,
vorticity, potential and age, return states with the potential of the vorticity,
and add the step size to the age.  (`Good` is an invariant of the states.) -/
structure FieldSolver [Add α] (hw : Solver α) (dt dx : α) (n : ℕ) (Good : NS (Cell α) → Prop) : Prop where
  shaped : ∀ s, Good s → Shaped n s
  init : ∀ d o p t, (d.h = n ∧ d.w = n) → (o.h = n ∧ o.w = n) → (p.h = n ∧ p.w = n) → Good (fieldState d o p t)
  step : ∀ s s' r, Good s → Good s' → SameFields s s' → hw.rk4_step s dt dx = .ok r →
    Good r ∧ ∃ r', hw.rk4_step s' dt dx = .ok r' ∧ Good r' ∧ SameFields r r'
  phi : ∀ s r o, Good s → hw.rk4_step s dt dx = .ok r → r.get? "omega" = some (.arr o) →
    ∃ p, hw.get_phi (.arr o) dx = .ok p ∧ r.get? "phi" = some p
  age : ∀ s r x, Good s → s.get? "age" = some (.num x) → hw.rk4_step s dt dx = .ok r →
    r.get? "age" = some (.num (x + dt))
  get_phi : ∀ o v, (o.h = n ∧ o.w = n) → hw.get_phi (.arr o) dx = .ok v → ∃ p, v = .arr p ∧ p.h = n ∧ p.w = n

/-- a run until `T 0`, continued until `T 1`, then until `T 2`, …, until `T n`:
what the last call returns and the state of the disk after it -/
def Run2.pieces [Casts α β] [Zero α] [Inhabited α] [Inhabited β] [FloatOps α] (E : Env2 α β) (a : Args2 α) (fuel : ℕ)
    (T : ℕ → α) (σ : St α β) : ℕ → Except PyErr (Option Unit) × St α β
  | 0 => run2 E (a.until (T 0)) fuel σ
  | n + 1 => run2 E (a.continued (T (n + 1))) fuel (pieces E a fuel T σ n).2

/-- A simulation with the frames `fr` can be continued from its file: if states
are stored, there are as many frames as fill the buffer a whole number of times;
if not, the last frame is recorded exactly; its time is recorded exactly in both
cases; and the last frame contains no NaN and is not zero. -/
def GoodCut [Casts α β] [FloatOps α] (E : Env2 α β) (a : Args2 α) (fr : List (α × NS (Cell α))) : Prop :=
  ∃ t s, fr.getLast? = some (t, s) ∧ (a.saveState = true → a.buffer_length ∣ fr.length) ∧
    (a.saveState = false → ∀ k ∈ fieldList, ∀ A, s.get? k = some (.arr A) →
      (A.map Casts.f32 : Arr β).map Casts.f64 = A) ∧
    Casts.f64 (Casts.f32 t : β) = t ∧
    E.hasNaN (.num t) = false ∧ (∀ k ∈ fieldList, ∀ A, s.get? k = some (.arr A) → E.hasNaN (.arr A) = false) ∧
    ∀ k ∈ ["density", "omega"], ∀ A, s.get? k = some (.arr A) → E.allZero (.arr A) = false

end Verif
