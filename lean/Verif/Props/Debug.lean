import Verif.Lemmas.Debug
import Verif.Props.HWHistory
import Verif.Props.Convergence

/-!
# C133: the debug output
-/

set_option linter.unusedSectionVars false

namespace Verif.Props

open Arr NS Spec Debug

/-- `history` of a simulation object with `debug` printing on or off -/
noncomputable def debugHistory (hw : HW) (debug : Bool) (dx : ℝ) : List Step → NS Val → Debug.D (NS Val)
  | [], s => pure s
  | .rk4 dt :: l, s => do
    let s ← Debug.rk4_step hw debug s dt dx
    debugHistory hw debug dx l s
  | .euler dt :: l, s => do
    let s ← Debug.euler_step hw s dt dx
    debugHistory hw debug dx l s

/-- **C133**: without `debug` nothing is printed, and every sequence of steps, from any dictionary, returns the states
and counts the calls, or raises the exception, of the simulation of the other properties. -/
theorem C133_off (hw : HW) (dx : ℝ) (l : List Step) (s : NS Val) (c : Calls) (out : List Line) :
    debugHistory hw false dx l s (c, out) = (history hw dx l s c).map fun r => (r.1, (r.2, out)) := by
  have : debugHistory hw false dx l s = Debug.D.of (history hw dx l s) := by
    induction l generalizing s with
    | nil => rfl
    | cons a l ih =>
      unfold history
      rw [Debug.D.of_bind]
      cases a with
      | rk4 dt =>
        change Debug.rk4_step hw false s dt dx >>= _ = Debug.D.of (hw.rk4_step s dt dx) >>= _
        rw [rk4_step_off]
        exact congrArg _ (funext ih)
      | euler dt =>
        change Debug.euler_step hw s dt dx >>= _ = Debug.D.of (hw.euler_step s dt dx) >>= _
        rw [euler_step_of]
        exact congrArg _ (funext ih)
  rw [this]; rfl

example : debugHistory (HW.init numpyBackend 1 3 1 1 1) false 1 [.rk4 1, .euler 2] demoState ({}, [])
    = (history (HW.init numpyBackend 1 3 1 1 1) 1 [.rk4 1, .euler 2] demoState {}).map fun r => (r.1, (r.2, [])) :=
  C133_off ..

/-- **C133**: `gradient_2d` with `debug=True` returns what it returns without, and prints one line: the largest absolute
value of each contribution to the time derivatives (coupling, bracket, diffusion; density also: background gradient), and
the mean of each, of which only that of the coupling is not zero.  The sizes bound the derivative. -/
theorem C133_gradient {h w : ℕ} (h0 : 0 < h) (w0 : 0 < w) (hw : HW) (hb : Std hw.backend h w) (dx dt : ℝ)
    (hN : 1 ≤ hw.N ∨ hw.nu = 0) (s : NS Val) (hs : IsState hw.TEST_CONSERVATION h w s) (c : Calls) (out : List Line) :
    ∃ g c' mc bo d bn k e, hw.gradient_2d (s.without "phi") (s.get? "phi") dt dx hw.zonal c = .ok (g, c') ∧
      Debug.gradient_2d hw (s.without "phi") (s.get? "phi") dt dx hw.zonal true (c, out)
        = .ok (g, (c', out ++ [.gradient [mc, bo, d] [mc, bn, k, e]
          [if hw.zonal then 0 else hw.c1 * (amean (arrOf s "phi") - amean (arrOf s "density")), 0, 0]
          [if hw.zonal then 0 else hw.c1 * (amean (arrOf s "phi") - amean (arrOf s "density")), 0, 0, 0]])) ∧
      (∀ (_ : NeZero h) (n o p : Fld h w), n = toFld (arrOf s "density") → o = toFld (arrOf s "omega") →
        p = toFld (arrOf s "phi") →
        IsMaxAbs (fun i j => hw.c1 * couple hw.zonal p n i j) mc ∧
        IsMaxAbs (fun i j => hw.poisson_bracket_coeff * jac dx p o i j) bo ∧
        IsMaxAbs (fun i j => hw.nu * ((lap dx)^[hw.N] o) i j) d ∧
        IsMaxAbs (fun i j => hw.poisson_bracket_coeff * jac dx p n i j) bn ∧
        IsMaxAbs (fun i j => hw.kappa_coeff * gradY dx p i j) k ∧
        IsMaxAbs (fun i j => hw.nu * ((lap dx)^[hw.N] n) i j) e) ∧
      ∀ i j, i < h → j < w → |(arrOf g "density").at' i j| ≤ mc + bn + k + e ∧ |(arrOf g "omega").at' i j| ≤ mc + bo + d := by
  have : NeZero h := ⟨h0.ne'⟩
  have : NeZero w := ⟨w0.ne'⟩
  obtain ⟨ks, v, hk, hn, rfl⟩ := hs.exists_mk
  have hg := hb.good
  have hks := filter_phi_facts hk.sub
  have hd : "density" ∈ ks.filter (· ≠ "phi") := by simp [hk.density]
  have ho : "omega" ∈ ks.filter (· ≠ "phi") := by simp [hk.omega]
  have ha : "age" ∈ ks.filter (· ≠ "phi") := by simp [hk.age]
  have e1 : NS.get? (NS.mk ks (st v)) "phi" = some (.arr (ofField v.2.2.1)) := by
    rw [get?_mk, if_pos hk.phi, st_phi]
  set P := parOf hw dx with hP
  have q := gradient_2d_mk hw.backend hg P hw.dx hw.k0 hw.TEST_CONSERVATION hks hd ho ha v v.2.2.1 dt c
  obtain ⟨l, ⟨mc, bo, d, bn, k, e, g1, g2, g3, g4, g5, g6, rfl⟩, q'⟩ :=
    gradient_2d_on hw.backend hg P hw.dx hw.k0 hw.TEST_CONSERVATION hks hd ho ha v v.2.2.1 dt (c, out)
  rw [hP, ← eq_mkHW] at q q'
  have hN' : 1 ≤ P.N ∨ P.nu = 0 := hN.imp id fun e => by
    change (-1 : ℝ) ^ (hw.N + 1) * hw.nu = 0
    rw [e, mul_zero]
  have hnu : (-1 : ℝ) ^ (P.N + 1) * P.nu = hw.nu := by
    change (-1 : ℝ) ^ (hw.N + 1) * ((-1) ^ (hw.N + 1) * hw.nu) = hw.nu
    rw [← mul_assoc, ← mul_pow]; norm_num
  have hyp : ∀ f : Fld h w, hyper P f = fun i j => hw.nu * ((lap dx)^[hw.N] f) i j := fun f => by
    unfold hyper; rw [hnu]; rfl
  have m1 : avg (fun i j => P.c1 * couple P.zonal v.2.2.1 v.1 i j)
      = if hw.zonal then 0 else hw.c1 * (amean (arrOf (NS.mk ks (st v)) "phi") - amean (arrOf (NS.mk ks (st v)) "density")) := by
    rw [avg_smul, avg_couple, arrOf_phi hk, arrOf_density hk, amean_ofField, amean_ofField]
    change hw.c1 * (if hw.zonal then _ else _) = _
    cases hw.zonal <;> simp
  have m2 : ∀ f : Fld h w, avg (fun i j => -(P.pb * jac P.dx v.2.2.1 f i j)) = 0 := fun f => by
    rw [avg_neg, avg_smul, avg_of_S (S_jac _ _ _), mul_zero, neg_zero]
  have m3 : avg (fun i j => -(P.kappa * gradY P.dx v.2.2.1 i j)) = 0 := by
    rw [avg_neg, avg_smul, avg_of_S (S_gradY _ _), mul_zero, neg_zero]
  rw [m1, m2, m2, m3, avg_hyper P hN', avg_hyper P hN'] at q'
  refine ⟨NS.mk (gradKeys hw.TEST_CONSERVATION) (st (gradS P hw.dx dt v.2.2.1 v)), gradCalls P hw.TEST_CONSERVATION c, mc, bo, d, bn, k, e,
    ?_, ?_, ?_, ?_⟩
  · rw [without_mk, e1]; exact q
  · rw [without_mk, e1]; exact q'
  · intro _ n o p en eo ep
    rw [arrOf_density hk] at en
    rw [arrOf_omega hk] at eo
    rw [arrOf_phi hk] at ep
    rw [toFld_ofField] at en eo ep
    subst en eo ep
    rw [hyp] at g3 g6
    exact ⟨g1, g2, g3, g4, g5, g6⟩
  · intro i j hi hj
    have gd : "density" ∈ gradKeys hw.TEST_CONSERVATION := by unfold gradKeys; simp
    have go : "omega" ∈ gradKeys hw.TEST_CONSERVATION := by unfold gradKeys; simp
    have a1 : arrOf (NS.mk (gradKeys hw.TEST_CONSERVATION) (st (gradS P hw.dx dt v.2.2.1 v))) "density"
        = ofField (rhsN P v.1 v.2.2.1) := by
      unfold arrOf; rw [get?_mk, if_pos gd, st_density]; rfl
    have a2 : arrOf (NS.mk (gradKeys hw.TEST_CONSERVATION) (st (gradS P hw.dx dt v.2.2.1 v))) "omega"
        = ofField (rhsO P v.1 v.2.1 v.2.2.1) := by
      unfold arrOf; rw [get?_mk, if_pos go, st_omega]; rfl
    rw [a1, a2, ofField_at' _ hi hj, ofField_at' _ hi hj]
    have b1 := abs_le.1 (g1.1 i j)
    have b2 := abs_le.1 (g2.1 i j)
    have b3 := abs_le.1 (g3.1 i j)
    have b4 := abs_le.1 (g4.1 i j)
    have b5 := abs_le.1 (g5.1 i j)
    have b6 := abs_le.1 (g6.1 i j)
    unfold rhsN rhsO
    constructor <;> rw [abs_le] <;> constructor <;> linarith

example : ∃ g c' mc bo d bn k e,
    (HW.init numpyBackend 1 3 1 1 1).gradient_2d (demoState.without "phi") (demoState.get? "phi") 0 1 false {} = .ok (g, c') ∧
      Debug.gradient_2d (HW.init numpyBackend 1 3 1 1 1) (demoState.without "phi") (demoState.get? "phi") 0 1 false true ({}, [])
        = .ok (g, (c', [.gradient [mc, bo, d] [mc, bn, k, e]
          [1 * (amean (arrOf demoState "phi") - amean (arrOf demoState "density")), 0, 0]
          [1 * (amean (arrOf demoState "phi") - amean (arrOf demoState "density")), 0, 0, 0]])) := by
  obtain ⟨g, c', mc, bo, d, bn, k, e, h1, h2, -⟩ := C133_gradient (h := 4) (w := 5) (by decide) (by decide)
    (HW.init numpyBackend 1 3 1 1 1) (.inl rfl) 1 0 (.inl (by decide)) demoState demoState_isState {} []
  exact ⟨g, c', mc, bo, d, bn, k, e, h1, h2⟩

/-- the line describes the Runge–Kutta step with step size `dt` from the state `s` to `s'`: it shows the age of `s'`,
the largest absolute value of the density of `s` and of the four increments of the density, of which `s'`
contains the weighted mean -/
def DescribesStep (hw : HW) (h w : ℕ) (dx dt : ℝ) (s s' : NS Val) (l : Line) : Prop :=
  ∃ m m1 m2 m3 m4, l = .step (numOf s' "age") [m, m1, m2, m3, m4] ∧
    ∀ (_ : NeZero h) (_ : NeZero w) (n o p : Fld h w), n = toFld (arrOf s "density") → o = toFld (arrOf s "omega") →
      p = toFld (arrOf s "phi") → IsMaxAbs n m ∧
      ∃ (pot : Fld h w → Fld h w) (K L : Fin 4 → Fld h w), (∀ q c, ∃ c', hw.get_phi (ofField q) dx c = .ok (ofField (pot q), c')) ∧
        Stages (parOf hw dx) pot dt n o p K L ∧
        IsMaxAbs (K 0) m1 ∧ IsMaxAbs (K 1) m2 ∧ IsMaxAbs (K 2) m3 ∧ IsMaxAbs (K 3) m4 ∧
        ∀ i j, (arrOf s' "density").at' i.val j.val = n i j + (K 0 i j + 2 * K 1 i j + 2 * K 2 i j + K 3 i j) / 6

section
variable {h w : ℕ} [NeZero h] [NeZero w]

private theorem half_add {x y : Fld h w} {n' : Fld h w} (e : ∀ i j, n' i j = y i j + x i j / 2) : n' = (1 / 2 : ℝ) • x + y := by
  funext i j
  rw [e]
  simp only [Pi.add_apply, Pi.smul_apply, smul_eq_mul]
  ring

private theorem one_add {x y : Fld h w} {n' : Fld h w} (e : ∀ i j, n' i j = y i j + x i j) : n' = x + y := by
  funext i j
  rw [e]
  simp only [Pi.add_apply]
  ring

private theorem stages_rk4K (P : Params) (dx0 dt : ℝ) (v : Sta h w) :
    Stages P (phiF P.dx) dt v.1 v.2.1 v.2.2.1 (fun i => (rk4K P dx0 dt v i).1) (fun i => (rk4K P dx0 dt v i).2.1) where
  k1 _ _ := rfl
  l1 _ _ := rfl
  k2 n' o' en eo i j := by rw [half_add en, half_add eo]; rfl
  l2 n' o' en eo i j := by rw [half_add en, half_add eo]; rfl
  k3 n' o' en eo i j := by rw [half_add en, half_add eo]; rfl
  l3 n' o' en eo i j := by rw [half_add en, half_add eo]; rfl
  k4 n' o' en eo i j := by rw [one_add en, one_add eo]; rfl
  l4 n' o' en eo i j := by rw [one_add en, one_add eo]; rfl

private theorem describes_mk (hw : HW) (dx : ℝ) (hg : hw.backend.Good h w) {ks : List String}
    (hk : GoodKeys ks hw.TEST_CONSERVATION) (v : Sta h w) (dt : ℝ) {l : Line} (hl : GoodStep (parOf hw dx) hw.dx dt v l) :
    DescribesStep hw h w dx dt (NS.mk ks (st v)) (NS.mk (stepKeys ks) (st (rk4S (parOf hw dx) hw.dx dt v))) l := by
  obtain ⟨m, m1, m2, m3, m4, g, g1, g2, g3, g4, rfl⟩ := hl
  refine ⟨m, m1, m2, m3, m4, by rw [numOf_age hk.step]; rfl, ?_⟩
  intro _ _ n o p en eo ep
  rw [arrOf_density hk, toFld_ofField] at en
  rw [arrOf_omega hk, toFld_ofField] at eo
  rw [arrOf_phi hk, toFld_ofField] at ep
  subst en eo ep
  refine ⟨g, phiF dx, _, _, fun q c => ⟨_, get_phi_ofField hw hg q dx c⟩, stages_rk4K (parOf hw dx) hw.dx dt v, g1, g2, g3, g4, ?_⟩
  intro i j
  rw [arrOf_density hk.step, ofField_at' _ (ZMod.val_lt i) (ZMod.val_lt j), ZMod.natCast_zmod_val, ZMod.natCast_zmod_val]
  change (1 / 6 : ℝ) * ((rk4K (parOf hw dx) hw.dx dt v 3).1 i j + (2 * (rk4K (parOf hw dx) hw.dx dt v 2).1 i j
    + (2 * (rk4K (parOf hw dx) hw.dx dt v 1).1 i j + (rk4K (parOf hw dx) hw.dx dt v 0).1 i j))) + v.1 i j = _
  ring

/-- what a history prints -/
inductive Prints (hw : HW) (h w : ℕ) (dx : ℝ) : List Step → NS Val → List Line → Prop
  | nil (s) : Prints hw h w dx [] s []
  | rk4 {dt l s s' c c' line lines} : hw.rk4_step s dt dx c = .ok (s', c') → DescribesStep hw h w dx dt s s' line →
      Prints hw h w dx l s' lines → Prints hw h w dx (.rk4 dt :: l) s (line :: lines)
  | euler {dt l s s' c c' lines} : hw.euler_step s dt dx c = .ok (s', c') →
      Prints hw h w dx l s' lines → Prints hw h w dx (.euler dt :: l) s lines

end

/-- **C133**: with `debug`, every sequence of steps from a plasma state returns the same states and counts the same calls,
and prints exactly one line for each call of `rk4_step`, which describes this step.  (No line lists the contributions to
the derivative: the flag is not passed on to `gradient_2d`.  `euler_step` prints nothing.) -/
theorem C133_on {h w : ℕ} (h0 : 0 < h) (w0 : 0 < w) (hw : HW) (hb : Std hw.backend h w) (dx : ℝ) (l : List Step)
    (s : NS Val) (hs : IsState hw.TEST_CONSERVATION h w s) (c : Calls) (out : List Line) :
    ∃ s' c' lines, history hw dx l s c = .ok (s', c') ∧ debugHistory hw true dx l s (c, out) = .ok (s', (c', out ++ lines)) ∧
      Prints hw h w dx l s lines := by
  have : NeZero h := ⟨h0.ne'⟩
  have : NeZero w := ⟨w0.ne'⟩
  have hg := hb.good
  obtain ⟨ks, v, hk, -, rfl⟩ := hs.exists_mk
  clear hs
  induction l generalizing ks v c out with
  | nil => exact ⟨_, _, [], rfl, by rw [List.append_nil]; rfl, .nil _⟩
  | cons a l ih =>
    have q := step_mk hw.backend hg (parOf hw dx) hw.dx hw.k0 hw.TEST_CONSERVATION hk a v c
    rw [← eq_mkHW] at q
    change a.run hw dx _ c = _ at q
    cases a with
    | rk4 dt =>
      obtain ⟨line, hl, e⟩ := rk4_step_on hw.backend hg (parOf hw dx) hw.dx hw.k0 hw.TEST_CONSERVATION hk v dt (c, out)
      rw [← eq_mkHW] at e
      obtain ⟨s', c', lines, e1, e2, e3⟩ := ih
        (rk4Calls (parOf hw dx) hw.TEST_CONSERVATION c) (out ++ [line]) (stepKeys ks) (rk4S (parOf hw dx) hw.dx dt v) hk.step
      refine ⟨s', c', line :: lines, ?_, ?_, .rk4 q (describes_mk hw dx hg hk v dt hl) e3⟩
      · unfold history
        rw [M.bind_apply, q]; exact e1
      · unfold debugHistory
        rw [Debug.D.bind_apply]
        change (Debug.rk4_step hw true (NS.mk ks (st v)) dt (parOf hw dx).dx (c, out) >>= _) = _
        rw [e, Py.ok_bind]
        rw [List.append_assoc] at e2
        exact e2
    | euler dt =>
      obtain ⟨s', c', lines, e1, e2, e3⟩ := ih
        (eulerCalls (parOf hw dx) hw.TEST_CONSERVATION c) out (stepKeys ks) (eulerS (parOf hw dx) hw.dx dt v.2.2.1 v) hk.step
      refine ⟨s', c', lines, ?_, ?_, .euler q e3⟩
      · unfold history
        rw [M.bind_apply, q]; exact e1
      · unfold debugHistory
        rw [Debug.D.bind_apply, euler_step_of, Debug.D.of_ok q, Py.ok_bind]
        exact e2

/-- **C133**: so there are as many lines as calls of `rk4_step`, and none lists contributions to the derivative. -/
theorem C133_lines {hw : HW} {h w : ℕ} {dx : ℝ} {l : List Step} {s : NS Val} {lines : List Line}
    (H : Prints hw h w dx l s lines) :
    lines.length = (l.filter fun a => a matches .rk4 _).length ∧
      ∀ x ∈ lines, ∀ a b c d, x ≠ .gradient a b c d := by
  induction H with
  | nil s => exact ⟨rfl, by simp⟩
  | rk4 _ hd _ ih =>
    obtain ⟨m, m1, m2, m3, m4, rfl, -⟩ := hd
    refine ⟨by simpa using ih.1, fun x hx => ?_⟩
    rcases List.mem_cons.1 hx with rfl | hx
    · intro a b c d h; cases h
    · exact ih.2 x hx
  | euler _ _ ih => exact ⟨by simpa using ih.1, ih.2⟩

example : ∃ s' c' lines, history (HW.init numpyBackend 1 3 1 1 1) 1 [.rk4 1, .euler 2, .rk4 3] demoState {} = .ok (s', c') ∧
    debugHistory (HW.init numpyBackend 1 3 1 1 1) true 1 [.rk4 1, .euler 2, .rk4 3] demoState ({}, []) = .ok (s', (c', lines)) ∧
    lines.length = 2 := by
  obtain ⟨s', c', lines, e1, e2, e3⟩ := C133_on (h := 4) (w := 5) (by decide) (by decide)
    (HW.init numpyBackend 1 3 1 1 1) (.inl rfl) 1 [.rk4 1, .euler 2, .rk4 3] demoState demoState_isState {} []
  exact ⟨s', c', lines, e1, e2, (C133_lines e3).1⟩

end Verif.Props
