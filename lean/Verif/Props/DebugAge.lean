import Verif.Props.Debug

/-!
# C133: debugging and states whose age is an array
-/

namespace Verif.Props

open Arr NS Spec Debug

theorem debug_bind_error {α β : Type} {x : M α} {f : α → M β} {g : α → Debug.D β} {c : Calls} {out : List Line} {r : β × Calls} {e : PyErr}
    (h : (x >>= f) c = .ok r) (H : ∀ a c', x c = .ok (a, c') → f a c' = .ok r → g a (c', out) = .error e) :
    (Debug.D.of x >>= g) (c, out) = .error e := by
  rw [M.bind_apply] at h
  rw [Debug.D.bind_apply]
  cases hx : x c with
  | error e' => rw [hx] at h; cases h
  | ok p =>
    rw [hx] at h
    have e1 : Debug.D.of x (c, out) = .ok (p.1, (p.2, out)) := Debug.D.of_ok hx
    rw [e1]
    exact H p.1 p.2 hx h

/-- **C133 is violated for states whose age is an array**: whenever the step without debugging succeeds, the step with debugging
raises `TypeError`. -/
theorem C133_array_age_violated (hw : HW) (s : NS Val) (A : Arr ℝ) (hA : s.get? "age" = some (.arr A)) (dt dx : ℝ) (c : Calls)
    (r : NS Val × Calls) (h : hw.rk4_step s dt dx c = .ok r) (out : List Line) :
    Debug.rk4_step hw true s dt dx (c, out) = .error .typeError := by
  unfold HW.rk4_step at h
  unfold Debug.rk4_step
  simp only [gradient_2d_off]
  iterate 17
    refine debug_bind_error h fun _ c _ h => ?_
  refine debug_bind_error h fun age c hage h => ?_
  have eA : age = .arr A := by
    unfold NS.getItem at hage
    rw [hA] at hage
    cases hage
    rfl
  subst eA
  refine debug_bind_error h fun age c hadd h => ?_
  cases hadd
  refine debug_bind_error h fun _ c _ h => ?_
  rfl

/-! ### such a step without debugging succeeds -/

section fields

set_option linter.unusedSectionVars false

variable {h w : ℕ} [NeZero h] [NeZero w]

/-- a state without potential whose age is an array -/
noncomputable def aged (n o a : Fld h w) : NS Val := [("density", .arr (ofField n)), ("omega", .arr (ofField o)), ("age", .arr (ofField a))]

theorem aged_mul (n o a : Fld h w) (x : ℝ) :
    (aged n o a).mul (.scalar (.num x)) = .ok (aged (fun i j => x * n i j) (fun i j => x * o i j) fun i j => x * a i j) := rfl

theorem aged_add (n o a n' o' a' : Fld h w) :
    (aged n o a).add (.ns (aged n' o' a')) = .ok (aged (fun i j => n' i j + n i j) (fun i j => o' i j + o i j) fun i j => a' i j + a i j) := by
  simp [aged, NS.add, NS.binop, NS.zipWith, NS.getItem, NS.get?, val_add]

theorem aged_phi (hw : HW) (hb : hw.backend.Good h w) (n o a : Fld h w) (dx : ℝ) (c : Calls) :
    hw.get_phi_of (aged n o a) dx c = .ok (.arr (ofField (phiF dx o)), { c with get_phi := c.get_phi + 1 }) := by
  have e : hw.get_phi_of (aged n o a) dx c = (hw.get_phi (ofField o) dx c).map fun r => (Val.arr r.1, r.2) := by
    change (hw.get_phi (ofField o) dx >>= fun x => pure (Val.arr x)) c = _
    rw [M.bind_apply]
    cases hw.get_phi (ofField o) dx c <;> rfl
  rw [e, get_phi_ofField hw hb]
  rfl

theorem aged_set (x y z : Fld h w) :
    NS.set [("density", Val.arr (ofField x)), ("omega", .arr (ofField y))] "age" (.arr (ofField z)) = aged x y z := by
  simp [NS.set, aged, NS.keys]

theorem aged_call (hw : HW) (n o a p : Fld h w) (dt dx : ℝ) (z : Bool) (c : Calls) :
    hw.gradient_2d (aged n o a) (some (.arr (ofField p))) dt dx z c
      = hw.hw2d_gradient (ofField n) (ofField o) (some (ofField p)) (some (.arr (ofField a))) dt dx z c := by
  rw [gradient_2d_eval hw (aged n o a) (ofField n) (ofField o) (ofField p) (some (.arr (ofField a))) dt dx z
    (not_reserved (test := false) fun k hk => by simpa [aged, NS.keys, gradKeys] using hk) (by simp [aged, NS.get?])
    (by simp [aged, NS.get?]) (by simp [aged, NS.get?])]

theorem aged_hw2d (hw : HW) (hb : hw.backend.Good h w) (ht : hw.TEST_CONSERVATION = false) (n o a p : Fld h w) (dt dx : ℝ)
    (z : Bool) (c : Calls) : ∃ (n' o' a' : Fld h w) (c' : Calls),
      hw.hw2d_gradient (ofField n) (ofField o) (some (ofField p)) (some (.arr (ofField a))) dt dx z c = .ok (aged n' o' a', c') := by
  have hadd : (Ops.add (Val.arr (ofField a)) (Val.num dt) : Py Val) = .ok (.arr (ofField fun i j => a i j + dt)) := rfl
  unfold HW.hw2d_gradient
  simp only [M.bind_apply, Option.elim, M.pure_apply, Py.ok_bind, hb.grad, M.lift_ok, logCall_apply, coupling_ofField, map_ofField,
    addBracket_ofField _ hb, addDiffusion_ofField _ hb, addKappa_ofField, HW.addAge, hadd, Py.pure_eq, HW.addConservation, ht,
    Bool.false_eq_true, if_false, aged_set]
  exact ⟨_, _, _, _, rfl⟩

theorem aged_gradient (hw : HW) (hb : hw.backend.Good h w) (ht : hw.TEST_CONSERVATION = false) (n o a p : Fld h w) (dt dx : ℝ)
    (z : Bool) (c : Calls) : ∃ (n' o' a' : Fld h w) (c' : Calls),
      hw.gradient_2d (aged n o a) (some (.arr (ofField p))) dt dx z c = .ok (aged n' o' a', c') := by
  rw [aged_call]
  exact aged_hw2d hw hb ht n o a p dt dx z c

theorem aged_step (hw : HW) (hb : hw.backend.Good h w) (ht : hw.TEST_CONSERVATION = false) (n o a p : Fld h w) (dt dx : ℝ) (c : Calls) :
    ∃ r : NS Val × Calls, hw.rk4_step (("phi", .arr (ofField p)) :: aged n o a) dt dx c = .ok r := by
  choose N O A C hG using aged_gradient hw hb ht
  have e1 : NS.without (("phi", .arr (ofField p)) :: aged n o a) "phi" = aged n o a := by simp [NS.without, aged]
  have e2 : NS.getItem (("phi", .arr (ofField p)) :: aged n o a) "phi" = .ok (.arr (ofField p)) := rfl
  have e3 : NS.getItem (("phi", .arr (ofField p)) :: aged n o a) "age" = .ok (.arr (ofField a)) := by
    simp [NS.getItem, NS.get?, aged]
  have e4 : (Ops.add (Val.arr (ofField a)) (Val.num dt) : Py Val) = .ok (.arr (ofField fun i j => a i j + dt)) := rfl
  unfold HW.rk4_step
  simp only [e1, e2, e3, e4, M.bind_apply, M.lift_ok, Py.ok_bind, hG, aged_mul, aged_add, aged_phi hw hb, logCall_apply, M.pure_apply]
  exact ⟨_, rfl⟩

end fields

/-- the hypotheses are met by arrays of ages on a 4 × 5 grid -/
example : ∃ r : NS Val × Calls, (HW.init numpyBackend 1 3 1 1 1 1 1 false false).rk4_step
      (("phi", .arr (ofField fun (_ : ZMod 4) (_ : ZMod 5) => 0)) :: aged (fun (i : ZMod 4) (_ : ZMod 5) => if i = 0 then 1 else 0) (fun _ _ => 0) fun _ _ => 0)
      (1 / 10) 1 {} = .ok r ∧
    Debug.rk4_step (HW.init numpyBackend 1 3 1 1 1 1 1 false false) true
      (("phi", .arr (ofField fun (_ : ZMod 4) (_ : ZMod 5) => 0)) :: aged (fun (i : ZMod 4) (_ : ZMod 5) => if i = 0 then 1 else 0) (fun _ _ => 0) fun _ _ => 0)
      (1 / 10) 1 ({}, []) = .error .typeError := by
  obtain ⟨r, hr⟩ := aged_step (h := 4) (w := 5) (HW.init numpyBackend 1 3 1 1 1 1 1 false false) numpyBackend_good rfl
    (fun (i : ZMod 4) (_ : ZMod 5) => if i = 0 then 1 else 0) (fun _ _ => 0) (fun _ _ => 0) (fun _ _ => 0) (1 / 10) 1 {}
  exact ⟨r, hr, C133_array_age_violated _ _ (ofField fun (_ : ZMod 4) (_ : ZMod 5) => 0) (by simp [NS.get?, aged]) _ _ _ r hr []⟩

end Verif.Props
