import Verif.Lemmas.HWBasic
import Verif.Lemmas.Namespace
import Mathlib.Algebra.Module.Prod
import Mathlib.Algebra.Module.Pi
import Mathlib.Tactic.Module

/-!
# One time step of the model as an explicit map on torus fields
-/

set_option linter.unusedSectionVars false

namespace Verif

open Arr NS Spec

variable {h w : ℕ} [NeZero h] [NeZero w]

/-- `HW.__init__` for given physical parameters; `dx0` is the constructor's `dx`
(only used by `get_gammas`), `P.dx` the one passed to the step functions -/
def mkHW (b : Backend) (P : Params) (dx0 k0 : ℝ) (test : Bool) : HW :=
  HW.init b dx0 P.N P.c1 P.nu k0 P.pb P.kappa P.zonal test

/-- contents of a plasma state: density, omega, phi, age, dE, dU -/
abbrev Sta (h w : ℕ) := Fld h w × Fld h w × Fld h w × ℝ × ℝ × ℝ

/-- entry lookup of a plasma state -/
def st (s : Sta h w) (k : String) : Val :=
  if k = "density" then .arr (ofField s.1)
  else if k = "omega" then .arr (ofField s.2.1)
  else if k = "phi" then .arr (ofField s.2.2.1)
  else if k = "age" then .num s.2.2.2.1
  else if k = "dE" then .num s.2.2.2.2.1
  else .num s.2.2.2.2.2

theorem st_add (s t : Sta h w) (k : String) : (Ops.add (st s k) (st t k) : Py Val) = .ok (st (s + t) k) := by
  unfold st
  repeat' split
  · exact val_add ..
  · exact val_add ..
  · exact val_add ..
  all_goals rfl

theorem st_smul (x : ℝ) (s : Sta h w) (k : String) :
    (Ops.mul (.num x) (st s k) : Py Val) = .ok (st (x • s) k) := by
  unfold st
  repeat' split
  all_goals rfl

theorem mul_st (ks : List String) (x : ℝ) (s : Sta h w) :
    NS.mul (mk ks (st s)) (.scalar (.num x)) = .ok (mk ks (st (x • s))) :=
  mapWith_mk _ _ _ _ fun k _ => st_smul x s k

theorem add_st {ks ks' : List String} (hk : ∀ k ∈ ks, k ∈ ks') (s t : Sta h w) :
    NS.add (mk ks (st s)) (.ns (mk ks' (st t))) = .ok (mk ks (st (t + s))) :=
  zipWith_mk _ _ _ _ hk fun k _ => st_add t s k

/-- time derivative of the energy reported by the conservation block -/
noncomputable def repE (P : Params) (dx0 : ℝ) (n p : Fld h w) : ℝ :=
  gamN dx0 n p - gamC P.c1 n p - avg fun i j => n i j * hyper P n i j - p i j * hyper P p i j
/-- time derivative of the enstrophy reported by the conservation block -/
noncomputable def repU (P : Params) (dx0 : ℝ) (n o p : Fld h w) : ℝ :=
  gamN dx0 n p - -avg fun i j => (n i j - o i j) * (hyper P n i j - hyper P p i j)

/-- keys produced by `gradient_2d` -/
def gradKeys (test : Bool) : List String :=
  ["density", "omega", "age"] ++ if test then ["dE", "dU"] else []

/-- values produced by `gradient_2d` -/
noncomputable def gradS (P : Params) (dx0 dt : ℝ) (p : Fld h w) (s : Sta h w) : Sta h w :=
  (rhsN P s.1 p, rhsO P s.1 s.2.1 p, 0, s.2.2.2.1 + dt, repE P dx0 s.1 p, repU P dx0 s.1 s.2.1 p)

/-- counters after `gradient_2d` -/
noncomputable def gradCalls (P : Params) (test : Bool) (c : Calls) : Calls :=
  { c with
    gradient_2d := c.gradient_2d + 1
    poisson_bracket := c.poisson_bracket + (if P.pb = 0 then 0 else 2)
    diffuse := c.diffuse + (if P.nu = 0 then 0 else 2) + (if test then 1 else 0) }

theorem nu_eq_zero (P : Params) : ((-1 : ℝ) ^ (P.N + 1) * P.nu = 0) ↔ P.nu = 0 := by
  rw [mul_eq_zero, or_iff_right (pow_ne_zero _ (by norm_num))]

theorem hw2d_gradient_ofField (b : Backend) (hb : b.Good h w) (P : Params) (dx0 k0 : ℝ) (test : Bool)
    (n o p : Fld h w) (a dt : ℝ) (c : Calls) :
    (mkHW b P dx0 k0 test).hw2d_gradient (ofField n) (ofField o) (some (ofField p)) (some (.num a)) dt
        P.dx P.zonal c
      = .ok (mk (gradKeys test) (st (gradS P dx0 dt p (n, o, 0, a, 0, 0))), gradCalls P test c) := by
  have hb' : (mkHW b P dx0 k0 test).backend.Good h w := hb
  unfold HW.hw2d_gradient
  simp only [M.bind_apply, Option.elim, M.pure_apply, Py.ok_bind, hb'.grad, M.lift_ok, logCall_apply,
    coupling_ofField, map_ofField, addBracket_ofField _ hb', addDiffusion_ofField _ hb', addKappa_ofField,
    HW.addAge]
  have hadd : (Ops.add (Val.num a) (Val.num dt) : Py Val) = .ok (.num (a + dt)) := rfl
  have hn : (mkHW b P dx0 k0 test).nu = (-1) ^ (P.N + 1) * P.nu := rfl
  have hN : (mkHW b P dx0 k0 test).N = P.N := rfl
  have hpb : (mkHW b P dx0 k0 test).poisson_bracket_coeff = P.pb := rfl
  have hk : (mkHW b P dx0 k0 test).kappa_coeff = P.kappa := rfl
  have hc : (mkHW b P dx0 k0 test).c1 = P.c1 := rfl
  have hdx : (mkHW b P dx0 k0 test).dx = dx0 := rfl
  have ht : (mkHW b P dx0 k0 test).TEST_CONSERVATION = test := rfl
  simp only [hadd, Py.ok_bind, Py.pure_eq, M.lift_ok, HW.addConservation, ht]
  cases test
  · simp only [Bool.false_eq_true, if_false, M.pure_apply]
    congr 2
    simp only [gradCalls, hn, hpb, nu_eq_zero]
    congr 1 <;> split <;> simp
  · simp only [if_true, M.bind_apply, gammas_ofField, M.lift_ok, Py.ok_bind, diffuse_ofField _ hb',
      map_ofField, hn, hN, DE_ofField, DU_ofField, M.pure_apply]
    congr 2
    simp only [gradCalls, hpb, nu_eq_zero]
    congr 1 <;> split <;> simp

/-- the same without an `age` entry -/
theorem hw2d_gradient_noage (b : Backend) (hb : b.Good h w) (P : Params) (dx0 k0 : ℝ) (test : Bool)
    (n o p : Fld h w) (dt : ℝ) (c : Calls) :
    (mkHW b P dx0 k0 test).hw2d_gradient (ofField n) (ofField o) (some (ofField p)) none dt
        P.dx P.zonal c
      = .ok (mk ((gradKeys test).filter (· ≠ "age")) (st (gradS P dx0 dt p (n, o, 0, 0, 0, 0))), gradCalls P test c) := by
  have hb' : (mkHW b P dx0 k0 test).backend.Good h w := hb
  unfold HW.hw2d_gradient
  simp only [M.bind_apply, Option.elim, M.pure_apply, Py.ok_bind, hb'.grad, M.lift_ok, logCall_apply,
    coupling_ofField, map_ofField, addBracket_ofField _ hb', addDiffusion_ofField _ hb', addKappa_ofField,
    HW.addAge]
  have hn : (mkHW b P dx0 k0 test).nu = (-1) ^ (P.N + 1) * P.nu := rfl
  have hN : (mkHW b P dx0 k0 test).N = P.N := rfl
  have hpb : (mkHW b P dx0 k0 test).poisson_bracket_coeff = P.pb := rfl
  have hk : (mkHW b P dx0 k0 test).kappa_coeff = P.kappa := rfl
  have hc : (mkHW b P dx0 k0 test).c1 = P.c1 := rfl
  have hdx : (mkHW b P dx0 k0 test).dx = dx0 := rfl
  have ht : (mkHW b P dx0 k0 test).TEST_CONSERVATION = test := rfl
  simp only [HW.addConservation, ht]
  cases test
  · simp only [Bool.false_eq_true, if_false, M.pure_apply]
    congr 2
    simp only [gradCalls, hn, hpb, nu_eq_zero]
    congr 1 <;> split <;> simp
  · simp only [if_true, M.bind_apply, gammas_ofField, M.lift_ok, Py.ok_bind, diffuse_ofField _ hb',
      map_ofField, hn, hN, DE_ofField, DU_ofField, M.pure_apply]
    congr 2
    simp only [gradCalls, hpb, nu_eq_zero]
    congr 1 <;> split <;> simp

theorem gradient_2d_eval (hw' : HW) (y : NS Val) (n o p : Arr ℝ) (a : Option Val) (dt dx : ℝ) (z : Bool)
    (hres : y.keys.any (· ∈ reservedNames) = false) (h1 : y.get? "density" = some (.arr n))
    (h2 : y.get? "omega" = some (.arr o)) (h3 : y.get? "age" = a) :
    hw'.gradient_2d y (some (.arr p)) dt dx z = hw'.hw2d_gradient n o (some p) a dt dx z := by
  funext c
  have e : (Except.map some (.ok p : Py (Arr ℝ))) = .ok (some p) := rfl
  simp -implicitDefEqProofs only [HW.gradient_2d, hres, h1, h2, h3, Bool.false_eq_true, if_false, M.bind_apply, Val.asArr,
    M.lift_ok, Py.ok_bind, Option.elim, e]

theorem st_density (s : Sta h w) : st s "density" = .arr (ofField s.1) := by simp [st]
theorem st_omega (s : Sta h w) : st s "omega" = .arr (ofField s.2.1) := by simp [st]
theorem st_phi (s : Sta h w) : st s "phi" = .arr (ofField s.2.2.1) := by simp [st]
theorem st_age (s : Sta h w) : st s "age" = .num s.2.2.2.1 := by simp [st]
theorem st_dE (s : Sta h w) : st s "dE" = .num s.2.2.2.2.1 := by simp [st]
theorem st_dU (s : Sta h w) : st s "dU" = .num s.2.2.2.2.2 := by simp [st]

theorem not_reserved {ks : List String} {test : Bool} (hks : ∀ k ∈ ks, k ∈ gradKeys test) :
    ks.any (· ∈ reservedNames) = false := by
  rw [List.any_eq_false]
  intro k hk
  have := hks k hk
  have : k ∈ ["density", "omega", "age", "dE", "dU"] := by
    unfold gradKeys at this
    cases test <;> simp at this ⊢ <;> tauto
  simp only [List.mem_cons, List.not_mem_nil, or_false] at this
  rcases this with rfl | rfl | rfl | rfl | rfl <;> simp [reservedNames]

theorem gradient_2d_mk (b : Backend) (hb : b.Good h w) (P : Params) (dx0 k0 : ℝ) (test : Bool)
    {ks : List String} (hks : ∀ k ∈ ks, k ∈ gradKeys test) (hd : "density" ∈ ks) (ho : "omega" ∈ ks)
    (ha : "age" ∈ ks) (s : Sta h w) (p : Fld h w) (dt : ℝ) (c : Calls) :
    (mkHW b P dx0 k0 test).gradient_2d (NS.mk ks (st s)) (some (.arr (ofField p))) dt P.dx P.zonal c
      = .ok (NS.mk (gradKeys test) (st (gradS P dx0 dt p s)), gradCalls P test c) := by
  rw [gradient_2d_eval (n := ofField s.1) (o := ofField s.2.1) (a := some (.num s.2.2.2.1))]
  · have e4 : gradS P dx0 dt p s = gradS P dx0 dt p (s.1, s.2.1, 0, s.2.2.2.1, 0, 0) := by
      simp only [gradS]
    rw [e4]
    exact hw2d_gradient_ofField b hb P dx0 k0 test s.1 s.2.1 p s.2.2.2.1 dt c
  · rw [keys_mk]; exact not_reserved hks
  · rw [get?_mk, if_pos hd, st_density]
  · rw [get?_mk, if_pos ho, st_omega]
  · rw [get?_mk, if_pos ha, st_age]

theorem get_phi_of_mk (b : Backend) (hb : b.Good h w) (P : Params) (dx0 k0 : ℝ) (test : Bool)
    {ks : List String} (ho : "omega" ∈ ks) (s : Sta h w) (dx : ℝ) (c : Calls) :
    (mkHW b P dx0 k0 test).get_phi_of (NS.mk ks (st s)) dx c
      = .ok (.arr (ofField (phiF dx s.2.1)), { c with get_phi := c.get_phi + 1 }) := by
  unfold HW.get_phi_of
  simp only [M.bind_apply, getItem_mk _ ho, M.lift_ok, Py.ok_bind, st_omega, Val.asArr]
  rw [get_phi_ofField _ (show (mkHW b P dx0 k0 test).backend.Good h w from hb)]
  rfl

/-- the state after one RK4 step -/
noncomputable def rk4S (P : Params) (dx0 dt : ℝ) (s : Sta h w) : Sta h w :=
  let k1 := dt • gradS P dx0 0 s.2.2.1 s
  let y1 := (1 / 2 : ℝ) • k1 + s
  let k2 := dt • gradS P dx0 (dt / 2) (phiF P.dx y1.2.1) y1
  let y2 := (1 / 2 : ℝ) • k2 + s
  let k3 := dt • gradS P dx0 (dt / 2) (phiF P.dx y2.2.1) y2
  let y3 := k3 + s
  let k4 := dt • gradS P dx0 dt (phiF P.dx y3.2.1) y3
  let y := (1 / 6 : ℝ) • (k4 + ((2 : ℝ) • k3 + ((2 : ℝ) • k2 + k1))) + s
  (y.1, y.2.1, phiF P.dx y.2.1, s.2.2.2.1 + dt, y.2.2.2.2.1, y.2.2.2.2.2)

/-- the state after one Euler step with potential `p` -/
noncomputable def eulerS (P : Params) (dx0 dt : ℝ) (p : Fld h w) (s : Sta h w) : Sta h w :=
  let y := dt • gradS P dx0 0 p s + s
  (y.1, y.2.1, phiF P.dx y.2.1, s.2.2.2.1 + dt, y.2.2.2.2.1, y.2.2.2.2.2)

/-- keys of the returned state: `phi` moves to the end -/
def stepKeys (ks : List String) : List String := ks.filter (· ≠ "phi") ++ ["phi"]

/-- counters after one RK4 step -/
noncomputable def rk4Calls (P : Params) (test : Bool) (c : Calls) : Calls :=
  { full_step := c.full_step + 1
    get_phi := c.get_phi + 4
    gradient_2d := c.gradient_2d + 4
    poisson_bracket := c.poisson_bracket + (if P.pb = 0 then 0 else 8)
    diffuse := c.diffuse + (if P.nu = 0 then 0 else 8) + (if test then 4 else 0) }

/-- counters after one Euler step -/
noncomputable def eulerCalls (P : Params) (test : Bool) (c : Calls) : Calls :=
  { full_step := c.full_step + 1
    get_phi := c.get_phi + 1
    gradient_2d := c.gradient_2d + 1
    poisson_bracket := c.poisson_bracket + (if P.pb = 0 then 0 else 2)
    diffuse := c.diffuse + (if P.nu = 0 then 0 else 2) + (if test then 1 else 0) }

/-- keys a plasma state may have so that the step succeeds -/
structure GoodKeys (ks : List String) (test : Bool) : Prop where
  sub : ∀ k ∈ ks, k = "phi" ∨ k ∈ gradKeys test
  density : "density" ∈ ks
  omega : "omega" ∈ ks
  phi : "phi" ∈ ks
  age : "age" ∈ ks

theorem GoodKeys.step {ks : List String} {test : Bool} (hk : GoodKeys ks test) :
    GoodKeys (stepKeys ks) test where
  sub k h := by
    unfold stepKeys at h
    rw [List.mem_append, List.mem_filter] at h
    rcases h with h | h
    · exact hk.sub k h.1
    · left; simpa using h
  density := by unfold stepKeys; simp [hk.density]
  omega := by unfold stepKeys; simp [hk.omega]
  phi := by unfold stepKeys; simp
  age := by unfold stepKeys; simp [hk.age]

theorem set_phi_age {ks : List String} (hp : "phi" ∉ ks) (ha : "age" ∈ ks) (y : Sta h w) (p : Fld h w)
    (a : ℝ) : ((NS.mk ks (st y)).set "phi" (.arr (ofField p))).set "age" (.num a)
      = NS.mk (ks ++ ["phi"]) (st (y.1, y.2.1, p, a, y.2.2.2.2.1, y.2.2.2.2.2)) := by
  rw [set_mk_of_not_mem _ _ hp, set_mk_of_mem _ _ (by simp [ha])]
  refine mk_congr fun k _ => ?_
  unfold st
  by_cases h1 : k = "age"
  · subst h1; simp
  · by_cases h2 : k = "phi"
    · subst h2; simp
    · simp [h1, h2]

theorem rk4_step_mk (b : Backend) (hb : b.Good h w) (P : Params) (dx0 k0 : ℝ) (test : Bool)
    {ks : List String} (hk : GoodKeys ks test) (s : Sta h w) (dt : ℝ) (c : Calls) :
    (mkHW b P dx0 k0 test).rk4_step (NS.mk ks (st s)) dt P.dx c
      = .ok (NS.mk (stepKeys ks) (st (rk4S P dx0 dt s)), rk4Calls P test c) := by
  have hz : (mkHW b P dx0 k0 test).zonal = P.zonal := rfl
  have hks : ∀ k ∈ ks.filter (· ≠ "phi"), k ∈ gradKeys test := by
    intro k h
    rw [List.mem_filter] at h
    rcases hk.sub k h.1 with e | e
    · simp [e] at h
    · exact e
  have hd : "density" ∈ ks.filter (· ≠ "phi") := by simp [hk.density]
  have ho : "omega" ∈ ks.filter (· ≠ "phi") := by simp [hk.omega]
  have ha : "age" ∈ ks.filter (· ≠ "phi") := by simp [hk.age]
  have hp : "phi" ∉ ks.filter (· ≠ "phi") := by simp
  have e3 : ∀ x y : ℝ, (Ops.add (Val.num x) (.num y) : Py Val) = .ok (.num (x + y)) := fun _ _ => rfl
  unfold HW.rk4_step
  simp only [without_mk, getItem_mk _ hk.phi, getItem_mk _ hk.age, st_phi, st_age, e3, hz, M.bind_apply, M.lift_ok,
    Py.ok_bind, gradient_2d_mk b hb P dx0 k0 test hks hd ho ha, mul_st, add_st hks,
    add_st (fun k (h : k ∈ gradKeys test) => h), get_phi_of_mk b hb P dx0 k0 test ho, logCall_apply,
    M.pure_apply, set_phi_age hp ha]
  congr 2
  simp only [rk4Calls, gradCalls]
  congr 1
  · cases test <;> simp <;> split <;> omega
  · split <;> omega

theorem filter_phi_facts {ks : List String} {test : Bool} (hsub : ∀ k ∈ ks, k = "phi" ∨ k ∈ gradKeys test) :
    ∀ k ∈ ks.filter (· ≠ "phi"), k ∈ gradKeys test := by
  intro k h
  rw [List.mem_filter] at h
  rcases hsub k h.1 with e | e
  · simp [e] at h
  · exact e

/-- Euler step on a state that contains `phi` -/
theorem euler_step_mk (b : Backend) (hb : b.Good h w) (P : Params) (dx0 k0 : ℝ) (test : Bool)
    {ks : List String} (hk : GoodKeys ks test) (s : Sta h w) (dt : ℝ) (c : Calls) :
    (mkHW b P dx0 k0 test).euler_step (NS.mk ks (st s)) dt P.dx c
      = .ok (NS.mk (stepKeys ks) (st (eulerS P dx0 dt s.2.2.1 s)), eulerCalls P test c) := by
  have hz : (mkHW b P dx0 k0 test).zonal = P.zonal := rfl
  have hks := filter_phi_facts hk.sub
  have hd : "density" ∈ ks.filter (· ≠ "phi") := by simp [hk.density]
  have ho : "omega" ∈ ks.filter (· ≠ "phi") := by simp [hk.omega]
  have ha : "age" ∈ ks.filter (· ≠ "phi") := by simp [hk.age]
  have hp : "phi" ∉ ks.filter (· ≠ "phi") := by simp
  have e3 : ∀ x y : ℝ, (Ops.add (Val.num x) (.num y) : Py Val) = .ok (.num (x + y)) := fun _ _ => rfl
  have e1 : NS.get? (NS.mk ks (st s)) "phi" = some (.arr (ofField s.2.2.1)) := by
    rw [get?_mk, if_pos hk.phi, st_phi]
  simp -implicitDefEqProofs only [HW.euler_step, without_mk, e1, getItem_mk _ hk.age, st_age, e3, hz,
    M.bind_apply, M.lift_ok, Py.ok_bind, gradient_2d_mk b hb P dx0 k0 test hks hd ho ha, mul_st, add_st hks,
    get_phi_of_mk b hb P dx0 k0 test ho, logCall_apply, M.pure_apply, set_phi_age hp ha]
  rfl

theorem gradient_2d_none (hw' : HW) (hb : hw'.backend.Good h w) (y : NS Val) (o : Fld h w) (n : Arr ℝ)
    (dt dx : ℝ) (z : Bool) (hres : y.keys.any (· ∈ reservedNames) = false)
    (h1 : y.get? "density" = some (.arr n)) (h2 : y.get? "omega" = some (.arr (ofField o))) (c : Calls) :
    hw'.gradient_2d y none dt dx z c
      = hw'.gradient_2d y (some (.arr (ofField (phiF dx o)))) dt dx z
          { c with get_phi := c.get_phi + 1 } := by
  rw [gradient_2d_eval hw' y n (ofField o) _ _ dt dx z hres h1 h2 rfl]
  simp -implicitDefEqProofs only [HW.gradient_2d, hres, h1, h2, Bool.false_eq_true, if_false, M.bind_apply,
    Val.asArr, M.lift_ok, Py.ok_bind, Option.elim, HW.hw2d_gradient, get_phi_ofField hw' hb, M.pure_apply]

/-- Euler step on a state without `phi`: the potential is computed first -/
theorem euler_step_mk_nophi (b : Backend) (hb : b.Good h w) (P : Params) (dx0 k0 : ℝ) (test : Bool)
    {ks : List String} (hks : ∀ k ∈ ks, k ∈ gradKeys test) (hd : "density" ∈ ks) (ho : "omega" ∈ ks)
    (ha : "age" ∈ ks) (s : Sta h w) (dt : ℝ) (c : Calls) :
    (mkHW b P dx0 k0 test).euler_step (NS.mk ks (st s)) dt P.dx c
      = .ok (NS.mk (ks ++ ["phi"]) (st (eulerS P dx0 dt (phiF P.dx s.2.1) s)),
          eulerCalls P test { c with get_phi := c.get_phi + 1 }) := by
  have hz : (mkHW b P dx0 k0 test).zonal = P.zonal := rfl
  have hp : "phi" ∉ ks := by
    intro h; have := hks _ h
    unfold gradKeys at this; cases test <;> simp at this
  have hf : ks.filter (· ≠ "phi") = ks := by
    rw [List.filter_eq_self]
    intro k hk
    have : k ≠ "phi" := fun e => hp (e ▸ hk)
    simp [this]
  have e3 : ∀ x y : ℝ, (Ops.add (Val.num x) (.num y) : Py Val) = .ok (.num (x + y)) := fun _ _ => rfl
  have e1 : NS.get? (NS.mk ks (st s)) "phi" = none := by
    rw [get?_mk, if_neg hp]
  have hres : (NS.mk ks (st s)).keys.any (· ∈ reservedNames) = false := by
    rw [keys_mk]; exact not_reserved hks
  have h1 : (NS.mk ks (st s)).get? "density" = some (.arr (ofField s.1)) := by
    rw [get?_mk, if_pos hd, st_density]
  have h2 : (NS.mk ks (st s)).get? "omega" = some (.arr (ofField s.2.1)) := by
    rw [get?_mk, if_pos ho, st_omega]
  simp -implicitDefEqProofs only [HW.euler_step, without_mk, hf, e1, getItem_mk _ ha, st_age, e3, hz,
    M.bind_apply, M.lift_ok, Py.ok_bind, gradient_2d_none (mkHW b P dx0 k0 test) hb _ _ _ _ _ _ hres h1 h2,
    gradient_2d_mk b hb P dx0 k0 test hks hd ho ha, mul_st, add_st hks,
    get_phi_of_mk b hb P dx0 k0 test ho, logCall_apply, M.pure_apply, set_phi_age hp ha]
  rfl

/-! ### states without `age`, and states with foreign entries -/

theorem gradient_2d_mk_noage (b : Backend) (hb : b.Good h w) (P : Params) (dx0 k0 : ℝ) (test : Bool)
    {ks : List String} (hks : ∀ k ∈ ks, k ∈ (gradKeys test).filter (· ≠ "age")) (hd : "density" ∈ ks)
    (ho : "omega" ∈ ks) (s : Sta h w) (p : Fld h w) (dt : ℝ) (c : Calls) :
    ∃ s' : Sta h w, (mkHW b P dx0 k0 test).gradient_2d (NS.mk ks (st s)) (some (.arr (ofField p))) dt P.dx P.zonal c
      = .ok (NS.mk ((gradKeys test).filter (· ≠ "age")) (st s'), gradCalls P test c) := by
  have ha : "age" ∉ ks := by
    intro h; have := hks _ h; simp at this
  rw [gradient_2d_eval (n := ofField s.1) (o := ofField s.2.1) (a := none)]
  · exact ⟨_, hw2d_gradient_noage b hb P dx0 k0 test s.1 s.2.1 p dt c⟩
  · rw [keys_mk]; exact not_reserved fun k hk => (List.mem_filter.mp (hks k hk)).1
  · rw [get?_mk, if_pos hd, st_density]
  · rw [get?_mk, if_pos ho, st_omega]
  · rw [get?_mk, if_neg ha]

theorem rk4_step_noage (b : Backend) (hb : b.Good h w) (P : Params) (dx0 k0 : ℝ) (test : Bool)
    {ks : List String} (hsub : ∀ k ∈ ks, k = "phi" ∨ k ∈ (gradKeys test).filter (· ≠ "age"))
    (hd' : "density" ∈ ks) (ho' : "omega" ∈ ks) (hp' : "phi" ∈ ks) (s : Sta h w) (dt : ℝ) (c : Calls) :
    (mkHW b P dx0 k0 test).rk4_step (NS.mk ks (st s)) dt P.dx c = .error (.keyError "age") := by
  have hz : (mkHW b P dx0 k0 test).zonal = P.zonal := rfl
  have hks : ∀ k ∈ ks.filter (· ≠ "phi"), k ∈ (gradKeys test).filter (· ≠ "age") := by
    intro k h
    rw [List.mem_filter] at h
    rcases hsub k h.1 with e | e
    · simp [e] at h
    · exact e
  have hd : "density" ∈ ks.filter (· ≠ "phi") := by simp [hd']
  have ho : "omega" ∈ ks.filter (· ≠ "phi") := by simp [ho']
  have ha : "age" ∉ ks := by
    intro h
    rcases hsub _ h with e | e
    · simp at e
    · simp at e
  have hg := gradient_2d_mk_noage b hb P dx0 k0 test hks hd ho
  choose G hG using fun (s : Sta h w) (p : Fld h w) (dt : ℝ) (c : Calls) => hg s p dt c
  simp -implicitDefEqProofs only [HW.rk4_step, without_mk, getItem_mk _ hp', getItem_mk_of_not_mem _ ha, st_phi, hz,
    M.bind_apply, M.lift_ok, M.lift_error, Py.ok_bind, hG, mul_st, add_st hks,
    add_st (fun k (h : k ∈ (gradKeys test).filter (· ≠ "age")) => h), get_phi_of_mk b hb P dx0 k0 test ho]
  rfl

theorem euler_step_noage (b : Backend) (hb : b.Good h w) (P : Params) (dx0 k0 : ℝ) (test : Bool)
    {ks : List String} (hsub : ∀ k ∈ ks, k = "phi" ∨ k ∈ (gradKeys test).filter (· ≠ "age"))
    (hd' : "density" ∈ ks) (ho' : "omega" ∈ ks) (hp' : "phi" ∈ ks) (s : Sta h w) (dt : ℝ) (c : Calls) :
    (mkHW b P dx0 k0 test).euler_step (NS.mk ks (st s)) dt P.dx c = .error (.keyError "age") := by
  have hz : (mkHW b P dx0 k0 test).zonal = P.zonal := rfl
  have hks : ∀ k ∈ ks.filter (· ≠ "phi"), k ∈ (gradKeys test).filter (· ≠ "age") := by
    intro k h
    rw [List.mem_filter] at h
    rcases hsub k h.1 with e | e
    · simp [e] at h
    · exact e
  have hd : "density" ∈ ks.filter (· ≠ "phi") := by simp [hd']
  have ho : "omega" ∈ ks.filter (· ≠ "phi") := by simp [ho']
  have ha : "age" ∉ ks := by
    intro h
    rcases hsub _ h with e | e
    · simp at e
    · simp at e
  have e1 : NS.get? (NS.mk ks (st s)) "phi" = some (.arr (ofField s.2.2.1)) := by
    rw [get?_mk, if_pos hp', st_phi]
  have hg := gradient_2d_mk_noage b hb P dx0 k0 test hks hd ho
  choose G hG using fun (s : Sta h w) (p : Fld h w) (dt : ℝ) (c : Calls) => hg s p dt c
  simp -implicitDefEqProofs only [HW.euler_step, without_mk, e1, getItem_mk_of_not_mem _ ha, hz,
    M.bind_apply, M.lift_ok, M.lift_error, Py.ok_bind, hG, mul_st, add_st hks,
    get_phi_of_mk b hb P dx0 k0 test ho]
  rfl

end Verif
