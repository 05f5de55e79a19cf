import Verif.Model.PropertiesGen
import Verif.Lemmas.PropsFloat
import Verif.Props.Measured
import Verif.Props.Run2Float
import Verif.Props.BitContinue

/-!
# Property theorem C138: measured quantities in floating-point arithmetic

C102 compares the fluxes, energies and enstrophies computed from the states of a simulation in exact arithmetic with
those of the equations.  Here both the simulation and the property functions are evaluated in floating-point arithmetic.
-/

set_option linter.unusedSectionVars false

namespace Verif.Props

open H5IO H5 Run Run2 RunProperties Arr Spec Set Rounding

/-- A floating-point implementation of the property functions that use the Fourier transform.  On `m × m` arrays with
entries of at most `M` they deviate from the exact functions on the same numbers by at most `η M²`. -/
structure AccurateSpectra {u : ℝ} {R : Rounded u} (Z : Gen.Spectra (Rd R)) (η : ℝ) (m : ℕ) (dx : Rd R) : Prop where
  gamma_n : ∀ n p M, Bounded m m n M → Bounded m m p M → ∃ v e, Z.gamma_n n p dx = .ok v ∧
    Properties.get_gamma_n_spectrally (exactly n) (exactly p) dx.val = .ok e ∧ |v.val - e| ≤ η * M ^ 2
  energy_N : ∀ n M, Bounded m m n M → ∃ v e, Z.energy_N n = .ok v ∧
    Properties.get_energy_N_spectrally (exactly n) = .ok e ∧ |v.val - e| ≤ η * M ^ 2
  energy_V : ∀ p M, Bounded m m p M → ∃ v e, Z.energy_V p dx = .ok v ∧
    Properties.get_energy_V_spectrally (exactly p) dx.val = .ok e ∧ |v.val - e| ≤ η * M ^ 2

section fields
variable {m : ℕ} [NeZero m]

/-- the exact value of a property of density, potential and vorticity -/
noncomputable def exVal (name : String) (dx c1 : ℝ) (z : Fld m m × Fld m m × Fld m m) : ℝ :=
  match propValue name dx c1 (ofField z.1) (ofField z.2.1) (ofField z.2.2) with
  | .ok v => v
  | .error _ => 0

theorem exVal_of {name : String} {dx c1 : ℝ} {z : Fld m m × Fld m m × Fld m m} {v : ℝ}
    (h : propValue name dx c1 (ofField z.1) (ofField z.2.1) (ofField z.2.2) = .ok v) : exVal name dx c1 z = v := by
  unfold exVal
  rw [h]

section gen
variable {u : ℝ} {R : Rounded u} {A : Gen.Arith (Rd R)} {b : Backend} {η dx : ℝ}

open Gen

theorem gen_gradient_m2 {α : Type} [Inhabited α] [Add α] [Sub α] [Mul α] [Div α] [Neg α] [Pow α ℕ] [NatCast α]
    (f : F α m m) (d : α) : NumpyGradients.periodic_gradient (ofField f) d (-2) = .ok (ofField (gradY d f)) := by
  rw [← numpy_periodic_gradient_y]
  simp [NumpyGradients.periodic_gradient, NumpyGradients.gradient]

theorem gen_gradient_m1 {α : Type} [Inhabited α] [Add α] [Sub α] [Mul α] [Div α] [Neg α] [Pow α ℕ] [NatCast α]
    (f : F α m m) (d : α) : NumpyGradients.periodic_gradient (ofField f) d (-1) = .ok (ofField (gradX d f)) := by
  rw [← numpy_periodic_gradient_x]
  simp [NumpyGradients.periodic_gradient, NumpyGradients.gradient]

theorem mul_ofF {α : Type} [Inhabited α] [Mul α] (f g : F α m m) :
    (.ok (ofField f) * .ok (ofField g) : Py (Arr α)) = .ok (ofField fun i j => f i j * g i j) := ok_mul ..

abbrev X3 (m : ℕ) : Type := Fld m m × Fld m m × Fld m m

variable {E : Fld m m →ₗ[ℝ] Fld m m}

theorem accN : AccF (fun (m' : Mach m m dx 1 E) (z : X3 m) => inj m'.R z.1) (fun z => z.1) :=
  Accurate.Acc.exact contDiff_fst fun _ _ => rfl
theorem accQ : AccF (fun (m' : Mach m m dx 1 E) (z : X3 m) => inj m'.R z.2.1) (fun z => z.2.1) :=
  Accurate.Acc.exact (contDiff_fst.comp contDiff_snd) fun _ _ => rfl
theorem accO : AccF (fun (m' : Mach m m dx 1 E) (z : X3 m) => inj m'.R z.2.2) (fun z => z.2.2) :=
  Accurate.Acc.exact (contDiff_snd.comp contDiff_snd) fun _ _ => rfl

/-- one property function in floating point against the exact one -/
def PropClose (b : Backend) (name : String) (dx c1 : ℝ) (m : ℕ) [NeZero m] : Prop :=
  ContDiff ℝ 1 (exVal (m := m) name dx c1) ∧ ∀ r : ℝ, ∃ C, 0 ≤ C ∧ ∀ (u : ℝ) (R : Rounded u) (A : Gen.Arith (Rd R))
    (Z : Spectra (Rd R)) (η : ℝ), 0 ≤ u → 0 ≤ η → 28 * (u + η) ≤ 1 → Accurate A b η m m ⟨dx⟩ → AccurateSpectra Z η m ⟨dx⟩ →
    ∀ n p o : F (Rd R) m m, ‖((ex n, ex p, ex o) : X3 m)‖ ≤ r →
    propValue name dx c1 (ofField (ex n)) (ofField (ex p)) (ofField (ex o)) = .ok (exVal name dx c1 (ex n, ex p, ex o)) ∧
    ∃ v, Gen.propValue A Z name ⟨dx⟩ ⟨c1⟩ (ofField n) (ofField p) (ofField o) = .ok v ∧
      |v.val - exVal name dx c1 (ex n, ex p, ex o)| ≤ C * (u + η)

theorem propClose_of_acc {c1 : ℝ} {name : String} (hE : ∀ f : Fld m m, b.poisson_solver (ofField f) dx = .ok (ofField (E f)))
    {Q : X3 m → ℝ} {V : ∀ m' : Mach m m dx 1 E, X3 m → Rd m'.R} (H : AccS V Q)
    (h1 : ∀ z : X3 m, propValue name dx c1 (ofField z.1) (ofField z.2.1) (ofField z.2.2) = .ok (Q z))
    (h2 : ∀ (m' : Mach m m dx 1 E) (A : Gen.Arith (Rd m'.R)) (Z : Spectra (Rd m'.R)) (n p o : F (Rd m'.R) m m),
      (∀ f : F (Rd m'.R) m m, A.mean (ofField f) = m'.a.mean f) →
      Gen.propValue A Z name ⟨dx⟩ ⟨c1⟩ (ofField n) (ofField p) (ofField o) = .ok (V m' (ex n, ex p, ex o))) :
    PropClose b name dx c1 m := by
  have e : exVal (m := m) name dx c1 = Q := funext fun z => exVal_of (h1 z)
  refine ⟨by rw [e]; exact H.smooth, fun r => ?_⟩
  obtain ⟨C, hC, hc⟩ := H.err r
  refine ⟨C, hC, fun u R A Z η u0 η0 hs hA _ n p o hz => ⟨by rw [e]; exact h1 (ex n, ex p, ex o), ?_⟩⟩
  let M : Mach m m dx 1 E := hA.mach hE 1 u0 η0 (by linarith) (by linarith) (by push_cast; linarith)
  refine ⟨V M (ex n, ex p, ex o), h2 M A Z n p o (fun f => hA.evals.mean f), ?_⟩
  rw [e]
  exact hc M (ex n, ex p, ex o) hz

theorem propClose_of_spectra {c1 : ℝ} {name : String} {Q : X3 m → ℝ} (hQ : ContDiff ℝ 1 Q)
    (h1 : ∀ z : X3 m, propValue name dx c1 (ofField z.1) (ofField z.2.1) (ofField z.2.2) = .ok (Q z))
    (h2 : ∀ (u : ℝ) (R : Rounded u) (A : Gen.Arith (Rd R)) (Z : Spectra (Rd R)) (η : ℝ) (n p o : F (Rd R) m m) (r : ℝ),
      AccurateSpectra Z η m ⟨dx⟩ → (∀ i j, |ex n i j| ≤ r) → (∀ i j, |ex p i j| ≤ r) →
      ∃ v, Gen.propValue A Z name ⟨dx⟩ ⟨c1⟩ (ofField n) (ofField p) (ofField o) = .ok v ∧
        |v.val - Q (ex n, ex p, ex o)| ≤ η * r ^ 2) :
    PropClose b name dx c1 m := by
  have e : exVal (m := m) name dx c1 = Q := funext fun z => exVal_of (h1 z)
  refine ⟨by rw [e]; exact hQ, fun r => ⟨r ^ 2, sq_nonneg r, ?_⟩⟩
  intro u R A Z η u0 η0 hs hA hZ n p o hz
  refine ⟨by rw [e]; exact h1 (ex n, ex p, ex o), ?_⟩
  have n1 : ‖ex n‖ ≤ r := (norm_fst_le (ex n, ex p, ex o)).trans hz
  have n2 : ‖ex p‖ ≤ r := ((norm_fst_le (ex p, ex o)).trans (norm_snd_le (ex n, ex p, ex o))).trans hz
  obtain ⟨v, v1, v2⟩ := h2 u R A Z η n p o r hZ (fun i j => (Fld.le_norm _ i j).trans n1) fun i j => (Fld.le_norm _ i j).trans n2
  refine ⟨v, v1, ?_⟩
  rw [e]
  refine v2.trans ?_
  rw [mul_comm]
  exact mul_le_mul_of_nonneg_left (by linarith) (sq_nonneg r)

/-- All eight property functions. -/
theorem propClose (hb : Std b m m) (hdx : dx ≠ 0) (c1 : ℝ) {name : String} (hname : name ∈ propertyTable) :
    PropClose b name dx c1 m := by
  obtain ⟨E, hE, -⟩ := solver_exists hb dx
  simp only [propertyTable, List.mem_cons, List.not_mem_nil, or_false] at hname
  rcases hname with rfl | rfl | rfl | rfl | rfl | rfl | rfl | rfl
  · refine propClose_of_acc hE (AccS.neg (AccS.mean (accN.mulF (accQ.grad hdx)))) (fun z => ?_) fun m' A Z n p o hm => ?_
    · exact gamma_n_ofField z.1 z.2.1 dx
    · simp only [Gen.propValue, if_true, Gen.get_gamma_n, gen_gradient_m2, Py.ok_bind, mul_ofF, hm, Py.pure_eq]
      rfl
  · refine propClose_of_spectra (Q := fun z => ((∑ k ∈ Finset.range (m / 2), rowSum (fluxK dx z.1 z.2.1) (k : ZMod m) / (m : ℝ))
      / ((m / 2 : ℕ) : ℝ))) ?_ (fun z => ?_) fun u R A Z η n p o r hZ hn hp => ?_
    · unfold rowSum fluxK
      refine ContDiff.div_const (ContDiff.sum fun k _ => ContDiff.div_const (ContDiff.sum fun l _ => ContDiff.div_const ?_ _) _) _
      refine ContDiff.comp (g := fun c : ℂ => c.re) Complex.reCLM.contDiff
        (ContDiff.mul (ContDiff.mul (ContDiff.mul ?_ contDiff_const) contDiff_const) ?_)
      · exact (contDiff_dft _ _).comp contDiff_fst
      · exact Complex.conjCLE.contDiff.comp ((contDiff_dft _ _).comp (contDiff_fst.comp contDiff_snd))
    · exact gamma_n_spectral_ofField z.1 z.2.1 dx
    · obtain ⟨v, e, v1, v2, v3⟩ := hZ.gamma_n _ _ r (bounded_ofF hn) (bounded_ofF hp)
      rw [exactly_ofF, exactly_ofF, gamma_n_spectral_ofField] at v2
      injection v2 with v2
      refine ⟨v, ?_, by rw [← v2] at v3; exact v3⟩
      simp only [Gen.propValue, String.reduceEq, if_false, if_true]
      exact v1
  · refine propClose_of_acc hE (AccS.mul (AccS.const c1) (AccS.mean (accN.sub accQ).sq)) (fun z => ?_) fun m' A Z n p o hm => ?_
    · exact gamma_c_ofField z.1 z.2.1 c1 dx
    · simp only [Gen.propValue, String.reduceEq, if_false, if_true, Gen.get_gamma_c, sub_ofF, Py.ok_bind, map_ofField, hm, Py.pure_eq]
      rfl
  · refine propClose_of_acc hE (AccS.halve (AccS.mean (accN.sq.add ((accQ.gradX hdx).sq.add (accQ.grad hdx).sq))))
      (fun z => ?_) fun m' A Z n p o hm => ?_
    · exact energy_ofField z.1 z.2.1 dx
    · simp only [Gen.propValue, String.reduceEq, if_false, if_true, Gen.get_energy, gen_gradient_m1, gen_gradient_m2, add_ofF,
        Py.ok_bind, map_ofField, hm, Py.pure_eq]
      rfl
  · refine propClose_of_spectra (Q := fun z => avg (fun i j => z.1 i j ^ 2) / 2) ?_ (fun z => ?_) fun u R A Z η n p o r hZ hn _ => ?_
    · have : Accurate.Acc Mach.δ vS _ _ := AccS.halve (AccS.mean (accN (m := m) (dx := dx) (E := E)).sq)
      exact this.smooth
    · exact energy_N_ofField z.1
    · obtain ⟨v, e, v1, v2, v3⟩ := hZ.energy_N _ r (bounded_ofF hn)
      rw [exactly_ofF, energy_N_ofField] at v2
      injection v2 with v2
      refine ⟨v, ?_, by rw [← v2] at v3; exact v3⟩
      simp only [Gen.propValue, String.reduceEq, if_false, if_true]
      exact v1
  · refine propClose_of_spectra (Q := fun z => avg (fun k l => -lamb k l / dx ^ 2 * ‖D (cx z.2.1) k l‖ ^ 2) / ((m : ℝ) * m) / 2)
      ?_ (fun z => ?_) fun u R A Z η n p o r hZ _ hp => ?_
    · unfold avg S
      refine ContDiff.div_const (ContDiff.div_const (ContDiff.div_const (ContDiff.sum fun k _ => ContDiff.sum fun l _ =>
        ContDiff.mul contDiff_const ?_) _) _) _
      have q : ContDiff ℝ 1 fun z : X3 m => D (cx z.2.1) k l := (contDiff_dft _ _).comp (contDiff_fst.comp contDiff_snd)
      simp only [Complex.sq_norm, Complex.normSq_apply]
      have q1 : ContDiff ℝ 1 fun z : X3 m => (D (cx z.2.1) k l).re := ContDiff.comp (g := fun c : ℂ => c.re) Complex.reCLM.contDiff q
      have q2 : ContDiff ℝ 1 fun z : X3 m => (D (cx z.2.1) k l).im := ContDiff.comp (g := fun c : ℂ => c.im) Complex.imCLM.contDiff q
      exact (q1.mul q1).add (q2.mul q2)
    · exact energy_V_ofField z.2.1 dx
    · obtain ⟨v, e, v1, v2, v3⟩ := hZ.energy_V _ r (bounded_ofF hp)
      rw [exactly_ofF, energy_V_ofField] at v2
      injection v2 with v2
      refine ⟨v, ?_, by rw [← v2] at v3; exact v3⟩
      simp only [Gen.propValue, String.reduceEq, if_false, if_true]
      exact v1
  · refine propClose_of_acc hE (AccS.halve (AccS.mean (accN.sub accO).sq)) (fun z => ?_) fun m' A Z n p o hm => ?_
    · exact enstrophy_ofField z.1 z.2.2 dx
    · simp only [Gen.propValue, String.reduceEq, if_false, if_true, Gen.get_enstrophy, sub_ofF, Py.ok_bind, map_ofField, hm, Py.pure_eq]
      rfl
  · refine propClose_of_acc hE (AccS.halve (AccS.mean (accN.sub (accQ.lapN hdx).subMean).sq)) (fun z => ?_) fun m' A Z n p o hm => ?_
    · exact enstrophy_phi_ofField z.1 z.2.1 dx
    · simp only [Gen.propValue, String.reduceEq, if_false, if_true, Gen.get_enstrophy_phi, numpy_periodic_laplace_N_ofField, sub_ofF,
        Py.ok_bind, map_ofField, hm, Py.pure_eq]
      rfl

end gen

theorem field_of {u : ℝ} {R : Rounded u} {X : Arr (Rd R)} (h : X.h = m ∧ X.w = m) :
    ∃ f : Gen.F (Rd R) m m, X = ofField f :=
  ⟨fun i j => X.at' i.val j.val, (ofField_vals h.1 h.2).symm⟩

theorem bounded_norm {u : ℝ} {R : Rounded u} {f : Gen.F (Rd R) m m} {M : ℝ} (h : Bounded m m (ofField f) M) : ‖ex f‖ ≤ M := by
  have h0 := h.2.2 0 0 NeZero.one_le NeZero.one_le
  refine Gen.Fld.norm_le ((abs_nonneg _).trans h0) fun i j => ?_
  have := h.2.2 i.val j.val (ZMod.val_lt i) (ZMod.val_lt j)
  rw [ofField_at' _ (ZMod.val_lt i) (ZMod.val_lt j), ZMod.natCast_zmod_val, ZMod.natCast_zmod_val] at this
  exact this

end fields

/-- with real numbers and exact means the generic functions are those of `Model/Properties` -/
theorem gen_propValue_exact {A : Gen.Arith ℝ} (hA : A.mean = Arr.mean) {Z : Gen.Spectra ℝ}
    (z1 : Z.gamma_n = Properties.get_gamma_n_spectrally) (z2 : Z.energy_N = Properties.get_energy_N_spectrally)
    (z3 : Z.energy_V = Properties.get_energy_V_spectrally) (name : String) (dx c1 : ℝ) (n p o : Arr ℝ) :
    Gen.propValue A Z name dx c1 n p o = propValue name dx c1 n p o := by
  unfold Gen.propValue propValue
  rw [z1, z2, z3]
  simp only [Gen.get_gamma_n, Gen.get_gamma_c, Gen.get_energy, Gen.get_enstrophy, Gen.get_enstrophy_phi, hA,
    Properties.get_gamma_n, Properties.get_gamma_c, Properties.get_energy, Properties.get_enstrophy,
    Properties.get_enstrophy_phi, Nat.cast_ofNat]

/-- **C138, real numbers.** With real numbers, exact means and exact Fourier transforms, the table of property functions
for any kind of numbers is the one of `run2`. -/
theorem C138_same_functions {A : Gen.Arith ℝ} (hA : A.mean = Arr.mean) {Z : Gen.Spectra ℝ}
    (z1 : Z.gamma_n = Properties.get_gamma_n_spectrally) (z2 : Z.energy_N = Properties.get_energy_N_spectrally)
    (z3 : Z.energy_V = Properties.get_energy_V_spectrally) : Gen.propertyFncs A Z = propertyFncs := by
  funext name
  by_cases h1 : name ∈ propertyTable
  · rw [propertyFncs_eq h1]
    have h2 : ¬(name = "DE" ∨ name = "DU" ∨ name = "dE_dt" ∨ name = "dU_dt") := by
      simp only [propertyTable, List.mem_cons, List.not_mem_nil, or_false] at h1
      rcases h1 with rfl | rfl | rfl | rfl | rfl | rfl | rfl | rfl <;> decide
    unfold Gen.propertyFncs
    rw [if_neg h2]
    refine (if_pos h1).trans ?_
    congr 1
    funext n p o dx c1
    cases n <;> cases p <;> cases o <;> first | rfl | exact gen_propValue_exact hA z1 z2 z3 ..
  · have h3 := h1
    simp only [propertyTable, List.mem_cons, List.not_mem_nil, or_false, not_or] at h3
    obtain ⟨q1, q2, q3, q4, q5, q6, q7, q8⟩ := h3
    unfold Gen.propertyFncs propertyFncs
    simp only [q1, q2, q3, q4, q5, q6, q7, q8, if_false, List.mem_cons, List.not_mem_nil, or_false]

example : Gen.propertyFncs (realArith (HW.init numpyBackend 1 3 1 (1 / 10) 1))
    ⟨Properties.get_gamma_n_spectrally, Properties.get_energy_N_spectrally, Properties.get_energy_V_spectrally⟩ = propertyFncs :=
  C138_same_functions rfl rfl rfl rfl

/-- **C138, rounding.** For every grid size, spacing and bound `M` there is a constant `C` such that for every
floating-point arithmetic with unit roundoff `u` whose means, Poisson solver and Fourier transforms are accurate to `η`,
each of the eight property functions, applied to arrays with entries of at most `M`, returns a number within `C (u + η)`
of what it returns in exact arithmetic for the same arrays. -/
theorem C138_property_rounding {m : ℕ} (hm : 0 < m) {b : Backend} (hb : Std b m m) {dx : ℝ} (hdx : dx ≠ 0) (c1 M : ℝ) :
    ∃ C, 0 ≤ C ∧ ∀ (u : ℝ) (R : Rounded u) (A : Gen.Arith (Rd R)) (Z : Gen.Spectra (Rd R)) (η : ℝ),
      0 ≤ u → 0 ≤ η → 28 * (u + η) ≤ 1 → Accurate A b η m m ⟨dx⟩ → AccurateSpectra Z η m ⟨dx⟩ →
      ∀ n p o : Arr (Rd R), Bounded m m n M → Bounded m m p M → Bounded m m o M → ∀ name ∈ propertyTable,
      ∃ v e, Gen.propValue A Z name ⟨dx⟩ ⟨c1⟩ n p o = .ok v ∧
        propValue name dx c1 (exactly n) (exactly p) (exactly o) = .ok e ∧ |v.val - e| ≤ C * (u + η) := by
  have : NeZero m := ⟨hm.ne'⟩
  have key : ∀ name : String, ∃ C : ℝ, 0 ≤ C ∧ (name ∈ propertyTable →
      ∀ (u : ℝ) (R : Rounded u) (A : Gen.Arith (Rd R)) (Z : Gen.Spectra (Rd R)) (η : ℝ),
      0 ≤ u → 0 ≤ η → 28 * (u + η) ≤ 1 → Accurate A b η m m ⟨dx⟩ → AccurateSpectra Z η m ⟨dx⟩ →
      ∀ n p o : Gen.F (Rd R) m m, ‖((ex n, ex p, ex o) : X3 m)‖ ≤ M →
      propValue name dx c1 (ofField (ex n)) (ofField (ex p)) (ofField (ex o)) = .ok (exVal name dx c1 (ex n, ex p, ex o)) ∧
      ∃ v, Gen.propValue A Z name ⟨dx⟩ ⟨c1⟩ (ofField n) (ofField p) (ofField o) = .ok v ∧
        |v.val - exVal name dx c1 (ex n, ex p, ex o)| ≤ C * (u + η)) := fun name => by
    by_cases h : name ∈ propertyTable
    · obtain ⟨C, hC, H⟩ := (propClose hb hdx c1 h).2 M
      exact ⟨C, hC, fun _ => H⟩
    · exact ⟨0, le_rfl, fun q => absurd q h⟩
  choose C hC H using key
  refine ⟨(propertyTable.map C).sum, List.sum_nonneg fun x hx => ?_, ?_⟩
  · obtain ⟨name, -, rfl⟩ := List.mem_map.1 hx
    exact hC name
  intro u R A Z η u0 η0 hs hA hZ n p o hn hp ho name hname
  obtain ⟨n, rfl⟩ := field_of (m := m) ⟨hn.1, hn.2.1⟩
  obtain ⟨p, rfl⟩ := field_of (m := m) ⟨hp.1, hp.2.1⟩
  obtain ⟨o, rfl⟩ := field_of (m := m) ⟨ho.1, ho.2.1⟩
  obtain ⟨e, v, v1, v2⟩ := H name hname u R A Z η u0 η0 hs hA hZ n p o
    (max_le (bounded_norm hn) (max_le (bounded_norm hp) (bounded_norm ho)))
  refine ⟨v, _, v1, by rw [exactly_ofF, exactly_ofF, exactly_ofF]; exact e, v2.trans ?_⟩
  refine mul_le_mul_of_nonneg_right ?_ (by linarith)
  exact List.single_le_sum (by
    intro x hx
    obtain ⟨name, -, rfl⟩ := List.mem_map.1 hx
    exact hC name) _ (List.mem_map.2 ⟨name, hname, rfl⟩)

section core

theorem floatErr_ofField {m : ℕ} [NeZero m] {u : ℝ} {R : Rounded u} (dx : ℝ) (f : Gen.F (Rd R) m m) (F : ℝ → ℝ → ℝ) {i j : ℕ}
    (hi : i < m) (hj : j < m) : floatErr dx (ofField f) F i j = gridErr dx (ofField (ex f)) F i j := by
  unfold floatErr gridErr
  rw [ofField_at' _ hi hj, ofField_at' _ hi hj]
  rfl

theorem small_of_float {m : ℕ} [NeZero m] {u : ℝ} {R : Rounded u} {dx C : ℝ} {f : Gen.F (Rd R) m m} {F : ℝ → ℝ → ℝ}
    (H : rms m m (floatErr dx (ofField f) F) ≤ C * dx ^ 2) : Small dx C (ex f - samp m m dx F) := by
  refine small_of_rms (le_of_eq_of_le ?_ H)
  unfold rms
  congr 2
  refine Finset.sum_congr rfl fun i hi => Finset.sum_congr rfl fun j hj => ?_
  rw [floatErr_ofField dx f F (Finset.mem_range.1 hi) (Finset.mem_range.1 hj)]

theorem norm_of_float {m : ℕ} [NeZero m] {u : ℝ} {R : Rounded u} {dx B K : ℝ} {f : Gen.F (Rd R) m m} {F : ℝ → ℝ → ℝ}
    (hB : ∀ y x, |F y x| ≤ B) (H : ∀ i j, i < m → j < m → |floatErr dx (ofField f) F i j| ≤ K) : ‖ex f‖ ≤ B + K := by
  have h0 := H 0 0 NeZero.one_le NeZero.one_le
  have hB0 := (abs_nonneg _).trans (hB 0 0)
  refine Gen.Fld.norm_le (add_nonneg hB0 ((abs_nonneg _).trans h0)) fun i j => ?_
  have := H i.val j.val (ZMod.val_lt i) (ZMod.val_lt j)
  unfold floatErr at this
  rw [ofField_at' _ (ZMod.val_lt i) (ZMod.val_lt j), ZMod.natCast_zmod_val, ZMod.natCast_zmod_val] at this
  have q1 := abs_le.1 this
  have q2 := abs_le.1 (hB (i.val * dx) (j.val * dx))
  exact abs_le.2 ⟨by change _ ≤ (f i j).val; linarith [q1.1, q2.1], by change (f i j).val ≤ _; linarith [q1.2, q2.2]⟩

open Gen in
/-- The potential and the property functions of a vorticity and a density, both in floating point, against exact ones. -/
theorem prop_phi_float {m : ℕ} [NeZero m] {b : Backend} (hb : Std b m m) {dx : ℝ} (hdx : dx ≠ 0) (c1 r : ℝ) {name : String}
    (hname : name ∈ propertyTable) : ∃ C, 0 ≤ C ∧ ∀ (u : ℝ) (R : Rounded u) (A : Gen.Arith (Rd R)) (Z : Spectra (Rd R))
      (η : ℝ), 0 ≤ u → 0 ≤ η → 28 * (u + η) ≤ 1 → Accurate A b η m m ⟨dx⟩ → AccurateSpectra Z η m ⟨dx⟩ →
      ∀ n o : F (Rd R) m m, ‖ex n‖ ≤ r → ‖ex o‖ ≤ r →
      ∃ v, Gen.propValue A Z name ⟨dx⟩ ⟨c1⟩ (ofField n) (ofField (phiG (faOf A m m ⟨dx⟩) o)) (ofField o) = .ok v ∧
        |v.val - exVal name dx c1 (ex n, phiF dx (ex o), ex o)| ≤ C * (u + η) := by
  obtain ⟨E, hE1, hE2⟩ := solver_exists hb dx
  obtain ⟨hQ, hP⟩ := propClose hb hdx c1 hname
  have Hn : AccF (fun (m' : Mach m m dx 1 E) (z : Fld m m × Fld m m) => inj m'.R z.1) (fun z => z.1) :=
    Accurate.Acc.exact contDiff_fst fun _ _ => rfl
  have Ho : AccF (fun (m' : Mach m m dx 1 E) (z : Fld m m × Fld m m) => inj m'.R z.2) (fun z => z.2) :=
    Accurate.Acc.exact contDiff_snd fun _ _ => rfl
  have Hp := AccF.phi Ho
  have H3 := Accurate.Acc.prod Hn (Accurate.Acc.prod Hp Ho Mach.δ0) Mach.δ0
  have HQ := Accurate.Op.comp (δ := Mach.δ) (T' := fun _ : Mach m m dx 1 E => ℝ) (v' := fun _ x => x)
    (op := fun m' (t : F (Rd m'.R) m m × F (Rd m'.R) m m × F (Rd m'.R) m m) => exVal name dx c1 (ex t.1, ex t.2.1, ex t.2.2))
    (G' := exVal (m := m) name dx c1) ⟨hQ, fun _ => ⟨0, le_rfl, fun m' t _ => by
      change ‖exVal name dx c1 (ex t.1, ex t.2.1, ex t.2.2) - exVal name dx c1 (ex t.1, ex t.2.1, ex t.2.2)‖ ≤ _
      rw [sub_self, norm_zero, zero_mul]⟩⟩ H3 Mach.δ1
  obtain ⟨C1, hC1, h1⟩ := H3.err r
  obtain ⟨C2, hC2, h2⟩ := HQ.err r
  have : ProperSpace (Fld m m × Fld m m) := FiniteDimensional.proper ℝ _
  obtain ⟨K, hK⟩ := (isCompact_closedBall (0 : Fld m m × Fld m m) r).bddAbove_image H3.smooth.continuous.norm.continuousOn
  obtain ⟨C3, hC3, h3⟩ := hP (K + C1)
  refine ⟨C3 + C2, by positivity, fun u R A Z η u0 η0 hs hA hZ n o hn ho => ?_⟩
  let M : Mach m m dx 1 E := hA.mach hE1 1 u0 η0 (by linarith) (by linarith) (by push_cast; linarith)
  have hz : ‖((ex n, ex o) : Fld m m × Fld m m)‖ ≤ r := max_le hn ho
  have e1 : ‖((ex n, ex (phiG (faOf A m m ⟨dx⟩) o), ex o) : X3 m) - (ex n, phiG (exFa E) (ex o), ex o)‖ ≤ C1 * (u + η) :=
    h1 M (ex n, ex o) hz
  have e2 : ‖((ex n, phiG (exFa E) (ex o), ex o) : X3 m)‖ ≤ K := hK ⟨(ex n, ex o), by simpa using hz, rfl⟩
  have e3 : ‖((ex n, ex (phiG (faOf A m m ⟨dx⟩) o), ex o) : X3 m)‖ ≤ K + C1 := by
    have t := norm_add_le (((ex n, ex (phiG (faOf A m m ⟨dx⟩) o), ex o) : X3 m) - (ex n, phiG (exFa E) (ex o), ex o))
      (ex n, phiG (exFa E) (ex o), ex o)
    rw [sub_add_cancel] at t
    have : C1 * (u + η) ≤ C1 := mul_le_of_le_one_right hC1 (by linarith)
    linarith
  obtain ⟨-, v, v1, v2⟩ := h3 u R A Z η u0 η0 hs hA hZ n (phiG (faOf A m m ⟨dx⟩) o) o e3
  have e4 : |exVal name dx c1 (ex n, ex (phiG (faOf A m m ⟨dx⟩) o), ex o) - exVal name dx c1 (ex n, phiG (exFa E) (ex o), ex o)|
      ≤ C2 * (u + η) := h2 M (ex n, ex o) hz
  have e5 : phiG (exFa E) (ex o) = phiF dx (ex o) := hE2 (ex o)
  rw [e5] at e4
  refine ⟨v, v1, ?_⟩
  have t := abs_add_le (v.val - exVal name dx c1 (ex n, ex (phiG (faOf A m m ⟨dx⟩) o), ex o))
    (exVal name dx c1 (ex n, ex (phiG (faOf A m m ⟨dx⟩) o), ex o) - exVal name dx c1 (ex n, phiF dx (ex o), ex o))
  rw [sub_add_sub_cancel] at t
  linarith

/-- The properties of states close to the solution. -/
theorem measured_core (P : Params) {L T B : ℝ} {r : ℕ} (hT : 0 ≤ T) (hL : 0 < L) (hr : 4 ≤ r)
    {nf wf pf : ℝ → ℕ → ℕ → ℝ → ℝ → ℝ} (H : HWSolution P L L T r B nf wf pf) {K : ℝ} (hK : 0 ≤ K) :
    ∃ C, 0 ≤ C ∧ ∀ (m : ℕ) (b : Backend), 0 < m → Std b m m →
      ∃ δ, 0 < δ ∧ ∀ (u : ℝ) (R : Rounded u) (A : Gen.Arith (Rd R)) (Z : Gen.Spectra (Rd R)) (η : ℝ), 0 ≤ u → 0 ≤ η → u + η ≤ δ →
        ∀ dx : Rd R, m * dx.val = L → Accurate A b η m m dx → AccurateSpectra Z η m dx →
        ∀ t, 0 ≤ t → t ≤ T → ∀ x : Gen.State (Rd R), (x.density.h = m ∧ x.density.w = m) → (x.omega.h = m ∧ x.omega.w = m) →
          Gen.get_phi A x.omega dx = .ok x.phi →
          rms m m (floatErr dx.val x.density (nf t 0 0)) ≤ K * dx.val ^ 2 →
          rms m m (floatErr dx.val x.omega (wf t 0 0)) ≤ K * dx.val ^ 2 →
          (∀ i j, i < m → j < m → |floatErr dx.val x.density (nf t 0 0) i j| ≤ K * dx.val) →
          (∀ i j, i < m → j < m → |floatErr dx.val x.omega (wf t 0 0) i j| ≤ K * dx.val) →
          ∀ name ∈ propertyTable, (name = "gamma_n_spectral" → Even m) →
            ∃ v, Gen.propValue A Z name dx ⟨P.c1⟩ x.density x.phi x.omega = .ok v ∧
              |v.val - physical L L P.c1 (nf t) (wf t) (pf t) name| ≤ C * dx.val ^ 2 := by
  have hB : 0 ≤ B := (H.smoothN 0 ⟨le_rfl, hT⟩).nonneg
  have hM : 0 ≤ measK P.c1 K B L := by
    unfold measK
    refine mul_nonneg (by positivity) (prodK_nonneg ?_ (by positivity) _)
    have := errK_nonneg hK B
    have := poin_nonneg L
    unfold fieldK
    positivity
  refine ⟨1 + measK P.c1 K B L, by positivity, fun m b hm hb => ?_⟩
  have : NeZero m := ⟨hm.ne'⟩
  have hm' : (1 : ℝ) ≤ m := by exact_mod_cast hm
  set dx := L / m with hdx
  have hdx0 : 0 < dx := by positivity
  have hmd : m * dx = L := by rw [hdx]; field_simp
  have hdL : dx ≤ L := by rw [← hmd]; exact le_mul_of_one_le_left hdx0.le hm'
  have key : ∀ name : String, ∃ C : ℝ, 0 ≤ C ∧ (name ∈ propertyTable →
      ∀ (u : ℝ) (R : Rounded u) (A : Gen.Arith (Rd R)) (Z : Gen.Spectra (Rd R)) (η : ℝ),
      0 ≤ u → 0 ≤ η → 28 * (u + η) ≤ 1 → Accurate A b η m m ⟨dx⟩ → AccurateSpectra Z η m ⟨dx⟩ →
      ∀ n o : Gen.F (Rd R) m m, ‖ex n‖ ≤ B + K * L → ‖ex o‖ ≤ B + K * L →
      ∃ v, Gen.propValue A Z name ⟨dx⟩ ⟨P.c1⟩ (ofField n) (ofField (Gen.phiG (faOf A m m ⟨dx⟩) o)) (ofField o) = .ok v ∧
        |v.val - exVal name dx P.c1 (ex n, phiF dx (ex o), ex o)| ≤ C * (u + η)) := fun name => by
    by_cases h : name ∈ propertyTable
    · obtain ⟨C, hC, H⟩ := prop_phi_float hb hdx0.ne' P.c1 (B + K * L) h
      exact ⟨C, hC, fun _ => H⟩
    · exact ⟨0, le_rfl, fun q => absurd q h⟩
  choose C hC HC using key
  have hsum : ∀ name ∈ propertyTable, C name ≤ (propertyTable.map C).sum := fun name hname =>
    List.single_le_sum (by
      intro x hx
      obtain ⟨name, -, rfl⟩ := List.mem_map.1 hx
      exact hC name) _ (List.mem_map.2 ⟨name, hname, rfl⟩)
  have hS0 : 0 ≤ (propertyTable.map C).sum := List.sum_nonneg fun x hx => by
    obtain ⟨name, -, rfl⟩ := List.mem_map.1 hx
    exact hC name
  generalize (propertyTable.map C).sum = S at hsum hS0
  refine ⟨min (1 / 28) (dx ^ 2 / (S + 1)), by positivity, ?_⟩
  intro u R A Z η u0 η0 hδ dx' hsp hA hZ t t0 htT x d1 d2 hphi r1 r2 p1 p2 name hname hev
  have ed : dx'.val = dx := by
    rw [hdx]; field_simp; linarith
  have ed' : dx' = ⟨dx⟩ := by rw [← ed]
  obtain ⟨X, Y, W⟩ := x
  simp only at d1 d2 hphi r1 r2 p1 p2 ⊢
  rw [ed] at r1 r2 p1 p2 ⊢
  rw [ed'] at hA hZ hphi ⊢
  obtain ⟨n, rfl⟩ := field_of (m := m) d1
  obtain ⟨o, rfl⟩ := field_of (m := m) d2
  have tt : t ∈ Icc 0 T := ⟨t0, htT⟩
  have hW : W = ofField (Gen.phiG (faOf A m m ⟨dx⟩) o) := by
    have := Gen.get_phi_ofF hA.evals o
    rw [hphi] at this
    injection this
  subst hW
  have l28 : 28 * (u + η) ≤ 1 := by
    have := hδ.trans (min_le_left _ _)
    linarith
  have lS : (S + 1) * (u + η) ≤ dx ^ 2 := by
    have := hδ.trans (min_le_right _ _)
    rw [le_div_iff₀ (by linarith)] at this
    linarith
  have hKL : K * dx ≤ K * L := mul_le_mul_of_nonneg_left hdL hK
  have b1 : ‖ex n‖ ≤ B + K * L := (norm_of_float ((H.smoothN _ tt).bound 0 0 (by omega)) p1).trans (by linarith)
  have b2 : ‖ex o‖ ≤ B + K * L := (norm_of_float ((H.smoothO _ tt).bound 0 0 (by omega)) p2).trans (by linarith)
  obtain ⟨v, v1, v2⟩ := HC name hname u R A Z η u0 η0 l28 hA hZ n o b1 b2
  refine ⟨v, v1, ?_⟩
  obtain ⟨w, w1, w2⟩ := measured_ofField (c1 := P.c1) hr hK (H.smoothN _ tt) (H.smoothO _ tt) (H.smoothP _ tt)
    (H.periodicN _ tt) (H.periodicO _ tt) (H.periodicP _ tt) (H.poisson _ tt) (H.meanP _ tt) hdx0 hmd
    (small_of_float r1) (small_of_float r2) hname hev
  have ew : exVal name dx P.c1 (ex n, phiF dx (ex o), ex o) = w := exVal_of w1
  rw [ew] at v2
  have t1 := abs_add_le (v.val - w) (w - physical L L P.c1 (nf t) (wf t) (pf t) name)
  rw [sub_add_sub_cancel] at t1
  have t2 : C name * (u + η) ≤ dx ^ 2 := by
    have : C name * (u + η) ≤ (S + 1) * (u + η) := mul_le_mul_of_nonneg_right (by linarith [hsum name hname]) (by linarith)
    linarith
  linarith

end core

section states

theorem gen_euler_phi {α : Type} [Inhabited α] [Add α] [Sub α] [Mul α] [Div α] [Neg α] [Pow α ℕ] [NatCast α]
    {A : Gen.Arith α} {P : Gen.Coeffs α} {s r : Gen.State α} {dt dx : α}
    (h : Gen.euler_step A P s dt dx = .ok r) : Gen.get_phi A r.omega dx = .ok r.phi := by
  unfold Gen.euler_step at h
  simp only [bind, Except.bind] at h
  repeat' split at h
  all_goals cases h
  next h' => exact h'

theorem iterate_last {α : Type} {step : Gen.State α → Py (Gen.State α)} {k : ℕ} {s x : Gen.State α}
    (h : Gen.iterate step (k + 1) s = .ok x) : ∃ y, step y = .ok x := by
  induction k generalizing s with
  | zero =>
    unfold Gen.iterate at h
    cases hs : step s with
    | error e => rw [hs] at h; cases h
    | ok y =>
      rw [hs] at h
      exact ⟨s, by rw [hs]; exact h⟩
  | succ k ih =>
    unfold Gen.iterate at h
    cases hs : step s with
    | error e => rw [hs] at h; cases h
    | ok y => rw [hs] at h; exact ih h

theorem iterate_ofF_exists {m : ℕ} [NeZero m] {u : ℝ} {R : Rounded u} {A : Gen.Arith (Rd R)} {b : Backend} {η dx : ℝ} {hw : HW}
    (hA : Accurate A b η m m ⟨dx⟩) (st : Step) (k : ℕ) (y : Gen.F (Rd R) m m × Gen.F (Rd R) m m) (p : Gen.F (Rd R) m m) :
    ∃ (y' : Gen.F (Rd R) m m × Gen.F (Rd R) m m) (p' : Gen.F (Rd R) m m),
      Gen.iterate (floatStep A hw dx st) k (Gen.ofF y p) = .ok (Gen.ofF y' p') := by
  induction k generalizing y p with
  | zero => exact ⟨y, p, rfl⟩
  | succ k ih =>
    unfold Gen.iterate
    rw [floatStep_ofF hA, Py.ok_bind]
    exact ih _ _

theorem iterate_shape {m : ℕ} [NeZero m] {u : ℝ} {R : Rounded u} {A : Gen.Arith (Rd R)} {b : Backend} {η dx e : ℝ} {hw : HW}
    (hA : Accurate A b η m m ⟨dx⟩) {st : Step} {k : ℕ} {x0 x : Gen.State (Rd R)} {s : NS Val} (hx : FloatClose m m e x0 s)
    (h : Gen.iterate (floatStep A hw dx st) k x0 = .ok x) :
    (x.density.h = m ∧ x.density.w = m) ∧ (x.omega.h = m ∧ x.omega.w = m) := by
  obtain ⟨f, hf⟩ := field_of hx.1
  obtain ⟨g, hg⟩ := field_of hx.2.1
  obtain ⟨q, hq⟩ := field_of hx.2.2.1
  have e0 : x0 = Gen.ofF (f, g) q := by
    cases x0
    simp only at hf hg hq
    subst hf hg hq
    rfl
  obtain ⟨y, p, h'⟩ := iterate_ofF_exists (hw := hw) hA st k (f, g) q
  rw [← e0, h] at h'
  rw [Except.ok.inj h']
  exact ⟨⟨rfl, rfl⟩, rfl, rfl⟩

/-- **C138.** Let `n, w, p` be a smooth solution of the Hasegawa–Wakatani equations on the periodic box `[0, L]²` and the
time interval `[0, T]`.  There is one constant `C` such that on every `m × m` grid, for every small enough time step and
every arithmetic that is accurate enough for it (its means, Poisson solver and Fourier transforms), after every number
`k ≥ 1` of steps up to time `T` from rounded samples of the solution at time 0, all evaluated in that arithmetic, each of
the eight property functions, evaluated in that arithmetic on the state reached, returns a number within `C dx²` of the
physical quantity of its name of the solution at time `k dt`.  (The spectral particle flux: for even `m`.) -/
theorem C138_properties_converge (P : Params) (hnu : 0 ≤ P.nu) {L T B : ℝ} {r : ℕ} (hT : 0 ≤ T) (hL : 0 < L) (hr : 4 ≤ r)
    (hr' : 2 * P.N + 2 ≤ r) {nf wf pf : ℝ → ℕ → ℕ → ℝ → ℝ → ℝ} (H : HWSolution P L L T r B nf wf pf) :
    ∃ C, 0 ≤ C ∧ ∀ (m : ℕ) (dx : ℝ), 0 < m → m * dx = L →
      ∀ (b : Backend) (dx0 k0 : ℝ) (test : Bool), Std b m m →
      ∀ hw, hw = HW.init b dx0 P.N P.c1 P.nu k0 P.pb P.kappa P.zonal test →
      ∀ s, IsState test m m s → Consistent hw dx s →
        Sampled m m dx (nf 0 0 0) (arrOf s "density") → Sampled m m dx (wf 0 0 0) (arrOf s "omega") →
      ∃ δ, 0 < δ ∧ ∀ dt, 0 < dt → dt ≤ δ →
        ∀ (u : ℝ) (R : Rounded u) (A : Gen.Arith (Rd R)) (Z : Gen.Spectra (Rd R)) (η : ℝ), 0 ≤ u → 0 ≤ η → u + η ≤ δ * dt →
        Accurate A b η m m ⟨dx⟩ → AccurateSpectra Z η m ⟨dx⟩ → ∀ step, step = Step.rk4 ∨ step = Step.euler →
        ∀ x0 : Gen.State (Rd R), FloatClose m m (u + η) x0 s → ∀ k : ℕ, 0 < k → k * dt ≤ T →
        ∃ x, Gen.iterate (floatStep A hw dx (step dt)) k x0 = .ok x ∧
          ∀ name ∈ propertyTable, (name = "gamma_n_spectral" → Even m) →
            ∃ v, Gen.propValue A Z name ⟨dx⟩ ⟨P.c1⟩ x.density x.phi x.omega = .ok v ∧
              |v.val - physical L L P.c1 (nf (k * dt)) (wf (k * dt)) (pf (k * dt)) name| ≤ C * dx ^ 2 := by
  obtain ⟨K, hK, HK⟩ := C108_floating_point_converges P hnu hT hr hr' H
  obtain ⟨C, hC, HC⟩ := measured_core P hT hL hr H hK
  refine ⟨C, hC, fun m dx hm hmd b dx0 k0 test hb hw ehw s hs hcon sn so => ?_⟩
  have : NeZero m := ⟨hm.ne'⟩
  have hm' : (0 : ℝ) < m := by exact_mod_cast hm
  have hdx : 0 < dx := by
    by_contra h
    nlinarith
  obtain ⟨δ1, hδ1, HK⟩ := HK m m dx hm hm hdx hmd hmd b dx0 k0 test hb hw ehw s hs hcon sn so
  obtain ⟨δ2, hδ2, HC⟩ := HC m b hm hb
  refine ⟨min (min δ1 δ2) 1, by positivity, ?_⟩
  intro dt hdt hle u R A Z η u0 η0 hp hA hZ step hstep x0 hx0 k hk hkT
  have l1 : dt ≤ δ1 := hle.trans ((min_le_left _ _).trans (min_le_left _ _))
  have l2 : dt ≤ 1 := hle.trans (min_le_right _ _)
  have p1 : u + η ≤ δ1 * dt := hp.trans (mul_le_mul_of_nonneg_right ((min_le_left _ _).trans (min_le_left _ _)) hdt.le)
  have p2 : u + η ≤ δ2 := by
    have : u + η ≤ δ2 * dt := hp.trans (mul_le_mul_of_nonneg_right ((min_le_left _ _).trans (min_le_right _ _)) hdt.le)
    exact this.trans (mul_le_of_le_one_right hδ2.le l2)
  obtain ⟨x, e, ⟨r1, r2, -⟩, r4⟩ := HK dt hdt l1 u R A η u0 η0 p1 hA step hstep x0 hx0 k hkT
  refine ⟨x, e, ?_⟩
  obtain ⟨k, rfl⟩ := Nat.exists_eq_add_of_le' hk
  obtain ⟨y, hy⟩ := iterate_last e
  have hphi : Gen.get_phi A x.omega ⟨dx⟩ = .ok x.phi := by
    rcases hstep with rfl | rfl
    · exact gen_rk4_phi hy
    · exact gen_euler_phi hy
  obtain ⟨z1, z2⟩ := iterate_shape hA hx0 e
  exact HC u R A Z η u0 η0 p2 ⟨dx⟩ hmd hA hZ _ (by positivity) hkT x z1 z2 hphi r1 r2
    (fun i j hi hj => (r4 i j hi hj).1) (fun i j hi hj => (r4 i j hi hj).2.1)

end states

section run2

theorem gen_propertyFncs_eq {α : Type} [Inhabited α] [Add α] [Sub α] [Mul α] [Div α] [Neg α] [Pow α ℕ] [NatCast α]
    (A : Gen.Arith α) (Z : Gen.Spectra α) {name : String} (hn : name ∈ propertyTable) :
    Gen.propertyFncs A Z name = some fun n p o dx c1 => match n, p, o with
      | .arr n, .arr p, .arr o => Gen.propValue A Z name dx c1 n p o
      | _, _, _ => .error .typeError := by
  have h1 : ¬(name = "DE" ∨ name = "DU" ∨ name = "dE_dt" ∨ name = "dU_dt") := by
    simp only [propertyTable, List.mem_cons, List.not_mem_nil, or_false] at hn
    rcases hn with rfl | rfl | rfl | rfl | rfl | rfl | rfl | rfl <;> decide
  unfold Gen.propertyFncs
  rw [if_neg h1]
  exact if_pos hn

/-- the name of the stored dataset of a property is not the name of a property -/
theorem fullres_notin {l : List String} (h : ∀ name ∈ l, name ∈ propertyTable) (name : String) : "fullres_" ++ name ∉ l :=
  fun hc => fullres_not_propertyName name (h _ hc)

theorem stored_id {u : ℝ} {R : Rounded u} {m : ℕ} {dx C : ℝ} {F : ℝ → ℝ → ℝ} {X : Arr (Rd R)}
    (h : @StoredNear u R (Rd R) ⟨id, id⟩ _ m dx 0 C F (X.map id)) :
    rms m m (floatErr dx X F) ≤ C * dx ^ 2 ∧ ∀ i j, i < m → j < m → |floatErr dx X F i j| ≤ C * dx := by
  have e : (X.map id).map id = X := by simp [Arr.map]
  unfold StoredNear at h
  simp only [add_zero] at h
  change rms m m (floatErr dx ((X.map id).map id) F) ≤ _ ∧ ∀ i j, i < m → j < m → |floatErr dx ((X.map id).map id) F i j| ≤ _ at h
  rw [e] at h
  exact h

/-- **C138, run2.** Under the same conditions: for every grid size there is a `δ > 0` with: every call of `run2` to a new file
in floating-point arithmetic as in C135, with property functions evaluated in that arithmetic, writes for each property
asked for a dataset `fullres_<name>` with one entry per frame.  The entry of a recorded step `k ≥ 1` is, before it is
rounded to be stored, within `C dx²` of the physical quantity of that name of the solution at the time `k step_size ≤ T`. -/
theorem C138_recorded_properties (P : Params) (hnu : 0 ≤ P.nu) {L T B : ℝ} {r : ℕ} (hT : 0 ≤ T) (hL : 0 < L)
    (hr : 4 ≤ r) (hr' : 2 * P.N + 2 ≤ r) {nf wf pf : ℝ → ℕ → ℕ → ℝ → ℝ → ℝ} (H : HWSolution P L L T r B nf wf pf) :
    ∃ C, 0 ≤ C ∧ ∀ (m : ℕ) (b : Backend), 0 < m → Std b m m →
      ∃ δ, 0 < δ ∧ ∀ (u : ℝ) (R : Rounded u) (A : Gen.Arith (Rd R)) (Z : Gen.Spectra (Rd R)) (η θ : ℝ),
        0 ≤ u → 0 ≤ η → u ≤ θ → θ ≤ 1 / 4 →
        ∀ (β : Type) (_ : Casts (Rd R) β) (_ : Inhabited β) (E : Env2 (Rd R) β) (a : Args2 (Rd R)) (σ : St (Rd R) β),
        Accurate A b η m m a.dx → AccurateSpectra Z η m a.dx →
        FloatPoses2 E A a σ P L (nf 0 0 0) (wf 0 0 0) (u + η) θ m →
        a.step_size.val ≤ δ → u + η ≤ δ * a.step_size.val →
        E.propertyFn = Gen.propertyFncs A Z → (∀ name ∈ a.properties, name ∈ propertyTable) →
        ∃ count, IsLeast {k : ℕ | a.end_time.val ≤ round4R R (stamp E a k)} count ∧ ∀ fuel, count < fuel →
          (run2 E a fuel σ).1 ≠ .ok none ∧ ∃ f : H5 (Rd R) β, (run2 E a fuel σ).2.fs a.output_path = some f ∧
          ∀ name ∈ a.properties, ∃ rows, f.dsets ("fullres_" ++ name) = some (.rows .one rows) ∧
            rows.length = (floatRecorded E a count).length ∧
            ((name = "gamma_n_spectral" → Even m) →
              ∀ j (hj : j < rows.length) k, (floatRecorded E a count)[j]? = some k → k ≠ 0 →
              ∀ t, t = (k : ℝ) * a.step_size.val → t ≤ T → ∃ v : Rd R, rows[j] = .num (Casts.f32 v) ∧
                |v.val - physical L L P.c1 (nf t) (wf t) (pf t) name| ≤ C * a.dx.val ^ 2) := by
  obtain ⟨K, hK, HK⟩ := float_core P hnu hT hL hr hr' H
  obtain ⟨C, hC, HC⟩ := measured_core P hT hL hr H hK
  refine ⟨C, hC, fun m b hm hb => ?_⟩
  obtain ⟨δ1, hδ1, HK⟩ := HK m b hm hb
  obtain ⟨δ2, hδ2, HC⟩ := HC m b hm hb
  refine ⟨min (min δ1 δ2) 1, by positivity, ?_⟩
  intro u R A Z η θ u0 η0 hu hθ β _ _ E a σ hA hZ hp hle hprec hE hnames
  have hdt := hp.step
  have l1 : a.step_size.val ≤ δ1 := hle.trans ((min_le_left _ _).trans (min_le_left _ _))
  have l2 : a.step_size.val ≤ 1 := hle.trans (min_le_right _ _)
  have p1 : u + η ≤ δ1 * a.step_size.val :=
    hprec.trans (mul_le_mul_of_nonneg_right ((min_le_left _ _).trans (min_le_left _ _)) hdt.le)
  have p2 : u + η ≤ δ2 :=
    (hprec.trans (mul_le_mul_of_nonneg_right ((min_le_left _ _).trans (min_le_right _ _)) hdt.le)).trans
      (mul_le_of_le_one_right hδ2.le l2)
  obtain ⟨X, hX, hX'⟩ := hp.density
  obtain ⟨Y, hY, hY'⟩ := hp.omega
  obtain ⟨-, Z', x, hZ', x0, x1, x2, hx⟩ := HK u R A η u0 η0 a.dx a.step_size hp.spacing hp.step hA l1 p1 X Y hX' hY'
  obtain ⟨count, S, hcount, hS, -, -, hrun⟩ := fresh2_float hp u0 hu hθ hA hX ⟨hX'.1, hX'.2.1⟩ hY ⟨hY'.1, hY'.2.1⟩ hZ' x0 x1 x2
  refine ⟨count, hcount, fun fuel hfuel => ?_⟩
  have hend : FloatOps.lt a.recording_start_time (timeAt E a (FloatOps.ofInt 0) count) = true := by
    rw [timeAt_stamp]
    refine decide_eq_true ?_
    change a.recording_start_time.val < stamp E a count
    have h0 : 0 ≤ stamp E a count := le_trans (by positivity) (stamp_ge hp u0 hu hθ count)
    have h1 : a.end_time.val ≤ _ := hcount.1
    have h2 := (round4R_bounds (R := R) u0 (hu.trans hθ) h0).2
    have h3 := hp.endpos
    have h4 := lt_of_mul_lt_mul_left (h3.trans_le (h1.trans h2)) (by linarith)
    linarith
  obtain ⟨f, f1, f2, -, f3⟩ := C52_all_written_partial hrun hfuel hend
  refine ⟨f2, f, f1, fun name hname => ?_⟩
  obtain ⟨rows, r1, r2⟩ := f3 name hname (fullres_notin hnames name)
  rw [frames2_float] at r2
  have hlen : rows.length = (floatRecorded E a count).length := by rw [← r2.length_eq, List.length_map]
  refine ⟨rows, r1, hlen, fun hev j hj k hjk hk0 t ht htT => ?_⟩
  rw [List.forall₂_map_left_iff] at r2
  have hjl : j < (floatRecorded E a count).length := hlen ▸ hj
  have hrow := (List.forall₂_iff_get.mp r2).2 j hjl hj
  have hkj : (floatRecorded E a count).get ⟨j, hjl⟩ = k := by
    rw [List.getElem?_eq_getElem hjl] at hjk
    exact Option.some.inj hjk
  rw [hkj] at hrow
  obtain ⟨v, ⟨F, n, p, o, v1, v2, v3, v4, v5⟩, v6⟩ := hrow
  simp only [if_neg hk0] at v2 v3 v4
  refine ⟨v, v6, ?_⟩
  obtain ⟨S1, S2, S3⟩ := hS k
  rw [S1] at v2
  rw [S3] at v3
  rw [S2] at v4
  have v2 := Option.some.inj v2
  have v3 := Option.some.inj v3
  have v4 := Option.some.inj v4
  subst v2 v3 v4
  rw [hE, gen_propertyFncs_eq A Z (hnames _ hname)] at v1
  have v1 := Option.some.inj v1
  subst v1
  have hc1 : a.c1 = ⟨P.c1⟩ := by rw [← hp.c1]
  have v5' : Gen.propValue A Z name a.dx ⟨P.c1⟩ (x k).density (x k).phi (x k).omega = .ok v := by
    rw [← hc1]; exact v5
  obtain ⟨b1, b2, -⟩ := hx (Rd R) ⟨id, id⟩ inferInstance 0 le_rfl (fun y => by change |y.val - y.val| ≤ _; simp) k
    (Nat.pos_of_ne_zero hk0) t ht htT
  obtain ⟨b1, b1'⟩ := stored_id b1
  obtain ⟨b2, b2'⟩ := stored_id b2
  have hphi : Gen.get_phi A (x k).omega a.dx = .ok (x k).phi := by
    obtain ⟨q, rfl⟩ := Nat.exists_eq_succ_of_ne_zero hk0
    exact gen_rk4_phi (x2 q)
  obtain ⟨v', w1, w2⟩ := HC u R A Z η u0 η0 p2 a.dx hp.spacing hA hZ t (by rw [ht]; positivity) htT (x k) (x1 k).1 (x1 k).2.1
    hphi b1 b2 b1' b2' name (hnames _ hname) hev
  rw [v5'] at w1
  rw [Except.ok.inj w1]
  exact w2

end run2

/-! ### non-vacuity -/

/-- Fourier transforms without rounding -/
noncomputable def exactSpectra {u : ℝ} (R : Rounded u) : Gen.Spectra (Rd R) where
  gamma_n n p dx := do return ⟨← Properties.get_gamma_n_spectrally (exactly n) (exactly p) dx.val⟩
  energy_N n := do return ⟨← Properties.get_energy_N_spectrally (exactly n)⟩
  energy_V p dx := do return ⟨← Properties.get_energy_V_spectrally (exactly p) dx.val⟩

theorem exactSpectra_accurate {u : ℝ} (R : Rounded u) {η : ℝ} (hη : 0 ≤ η) {m : ℕ} (hm : 0 < m) (dx : Rd R) :
    AccurateSpectra (exactSpectra R) η m dx where
  gamma_n n p M hn hp := by
    obtain ⟨v, hv⟩ := propValue_ok (name := "gamma_n_spectral") (by decide) dx.val 1 hm (n := exactly n) (p := exactly p) (o := exactly n)
      ⟨hn.1, hn.2.1⟩ ⟨hp.1, hp.2.1⟩ ⟨hn.1, hn.2.1⟩
    have hv : Properties.get_gamma_n_spectrally (exactly n) (exactly p) dx.val = .ok v := hv
    refine ⟨⟨v⟩, v, ?_, hv, by simp; positivity⟩
    simp only [exactSpectra, hv, Py.ok_bind]
    rfl
  energy_N n M hn := by
    obtain ⟨v, hv⟩ := propValue_ok (name := "thermal_energy") (by decide) dx.val 1 hm (n := exactly n) (p := exactly n) (o := exactly n)
      ⟨hn.1, hn.2.1⟩ ⟨hn.1, hn.2.1⟩ ⟨hn.1, hn.2.1⟩
    have hv : Properties.get_energy_N_spectrally (exactly n) = .ok v := hv
    refine ⟨⟨v⟩, v, ?_, hv, by simp; positivity⟩
    simp only [exactSpectra, hv, Py.ok_bind]
    rfl
  energy_V n M hn := by
    obtain ⟨v, hv⟩ := propValue_ok (name := "kinetic_energy") (by decide) dx.val 1 hm (n := exactly n) (p := exactly n) (o := exactly n)
      ⟨hn.1, hn.2.1⟩ ⟨hn.1, hn.2.1⟩ ⟨hn.1, hn.2.1⟩
    have hv : Properties.get_energy_V_spectrally (exactly n) dx.val = .ok v := hv
    refine ⟨⟨v⟩, v, ?_, hv, by simp; positivity⟩
    simp only [exactSpectra, hv, Py.ok_bind]
    rfl

theorem gen_propValue_ok {m : ℕ} (hm : 0 < m) {b : Backend} (hb : Std b m m) {dx : ℝ} (hdx : dx ≠ 0) (c1 : ℝ) {u : ℝ} {R : Rounded u}
    {A : Gen.Arith (Rd R)} {Z : Gen.Spectra (Rd R)} {η : ℝ} (u0 : 0 ≤ u) (η0 : 0 ≤ η) (hs : 28 * (u + η) ≤ 1)
    (hA : Accurate A b η m m ⟨dx⟩) (hZ : AccurateSpectra Z η m ⟨dx⟩) {name : String} (hname : name ∈ propertyTable)
    {n p o : Arr (Rd R)} (hn : n.h = m ∧ n.w = m) (hp : p.h = m ∧ p.w = m) (ho : o.h = m ∧ o.w = m) :
    ∃ v, Gen.propValue A Z name ⟨dx⟩ ⟨c1⟩ n p o = .ok v := by
  have : NeZero m := ⟨hm.ne'⟩
  obtain ⟨n, rfl⟩ := field_of hn
  obtain ⟨p, rfl⟩ := field_of hp
  obtain ⟨o, rfl⟩ := field_of ho
  obtain ⟨C, -, h⟩ := (propClose hb hdx c1 hname).2 ‖((ex n, ex p, ex o) : X3 m)‖
  obtain ⟨-, v, hv, -⟩ := h u R A Z η u0 η0 hs hA hZ n p o le_rfl
  exact ⟨v, hv⟩

noncomputable def rdEnvP {u : ℝ} {R : Rounded u} (A : Gen.Arith (Rd R)) : Env2 (Rd R) (Rd (Rounded.binary 24)) :=
  { rdEnv2 A with propertyFn := Gen.propertyFncs A (exactSpectra R) }

noncomputable def rdArgsP {u : ℝ} (R : Rounded u) (m : ℕ) (dt : ℝ) : Args2 (Rd R) :=
  { rdArgs2 R m dt with properties := propertyTable }

theorem rd_posesP {u : ℝ} {R : Rounded u} (A : Gen.Arith (Rd R)) (m : ℕ) (hm : 0 < m) (dt η : ℝ) (hdt : 0 < dt) (u0 : 0 ≤ u)
    (η0 : 0 ≤ η) (hs : 28 * (u + η) ≤ 1) (hA : Accurate A numpyBackend η m m ⟨2 * Real.pi / m⟩) :
    FloatPoses2 (rdEnvP A) A (rdArgsP R m dt) ⟨fun _ => none, []⟩ ⟨0, 1, 3, 1 / 10, 1, 40 / 3, true⟩ (2 * Real.pi)
      (modeFam (5 / 3 * amp 0) (4 / 3 * amp 0) (4 * 0) 0 0) (modeFam (- amp 0) 0 (4 * 0) 0 0) (u + η) (1 / 4) m :=
  have h := rd_poses2 A m hm dt (u + η) hdt (by positivity) (by linarith)
  { h with
    sum := h.sum
    nodup := (by decide : propertyTable.Nodup)
    props := fun name hn => ⟨_, gen_propertyFncs_eq A _ hn, fun n p o h1 h2 h3 =>
      gen_propValue_ok hm (.inl rfl) (by have := Real.pi_pos; positivity) 3 u0 η0 hs hA (exactSpectra_accurate R η0 hm _) hn h1 h2 h3⟩
    names := by change ∀ k ∈ _, k ∉ propertyTable; decide }

/-- the growing particle flux of the wave appears in the file of every accurate enough run -/
example : ∃ C, ∀ m : ℕ, 0 < m → ∃ dt : ℝ, 0 < dt ∧ ∃ (p : ℕ) (A : Gen.Arith (Rd (Rounded.binary p))) (count : ℕ),
    ∀ fuel, count < fuel →
    ∃ (f : H5 (Rd (Rounded.binary p)) (Rd (Rounded.binary 24))) (rows : List (Cell (Rd (Rounded.binary 24)))),
      (run2 (rdEnvP A) (rdArgsP (Rounded.binary p) m dt) fuel ⟨fun _ => none, []⟩).2.fs "run.h5" = some f ∧
      f.dsets "fullres_gamma_n" = some (.rows .one rows) ∧
      rows.length = (floatRecorded (rdEnvP A) (rdArgsP (Rounded.binary p) m dt) count).length ∧
      ∀ j (hj : j < rows.length) k, (floatRecorded (rdEnvP A) (rdArgsP (Rounded.binary p) m dt) count)[j]? = some k →
        k ≠ 0 → (k : ℝ) * dt ≤ 5 → ∃ v : Rd (Rounded.binary p), rows[j] = .num ⟨nearest 24 v.val⟩ ∧
        |v.val - 2 / 3 * amp (k * dt) ^ 2| ≤ C * (2 * Real.pi / m) ^ 2 := by
  obtain ⟨C, -, H⟩ := C138_recorded_properties _ (by norm_num) (by norm_num) (by positivity) le_rfl (by norm_num)
    (zonal_wave 5)
  refine ⟨C, fun m hm => ?_⟩
  obtain ⟨δ, hδ, H⟩ := H m numpyBackend hm (.inl rfl)
  obtain ⟨p, A, η, η0, hp, hA⟩ := C103_arithmetic_exists (hw := HW.init numpyBackend 1 1 1 1 1) (h := m) (w := m) hm hm (.inl rfl)
    (2 * Real.pi / m) (min (δ * δ) (1 / 28)) (by positivity)
  have u0 : (0 : ℝ) ≤ 2 ^ (-(p : ℤ)) := by positivity
  have hs : 28 * ((2 : ℝ) ^ (-(p : ℤ)) + η) ≤ 1 := by linarith [hp.trans (min_le_right _ _)]
  obtain ⟨count, -, H⟩ := H _ (Rounded.binary p) A (exactSpectra _) η (1 / 4) u0 η0 (by linarith) le_rfl _ rdSingle
    inferInstance (rdEnvP A) (rdArgsP (Rounded.binary p) m δ) ⟨fun _ => none, []⟩ hA (exactSpectra_accurate _ η0 hm _)
    (rd_posesP A m hm δ η hδ u0 η0 hs hA) le_rfl (hp.trans (min_le_left _ _)) rfl (fun _ h => h)
  refine ⟨δ, hδ, p, A, count, fun fuel hf => ?_⟩
  obtain ⟨-, f, f1, H⟩ := H fuel hf
  obtain ⟨rows, r1, r2, r3⟩ := H "gamma_n" (by change _ ∈ propertyTable; decide)
  refine ⟨f, rows, f1, r1, r2, fun j hj k hk hk0 ht => ?_⟩
  obtain ⟨v, v1, v2⟩ := r3 (fun h => absurd h (by decide)) j hj k hk hk0 _ rfl ht
  refine ⟨v, v1, ?_⟩
  have v2 : |v.val - physical (2 * Real.pi) (2 * Real.pi) 3 _ _ _ "gamma_n"| ≤ _ := v2
  rw [wave_flux] at v2
  exact v2

/-- the flux of the states of the drift wave -/
example : ∃ C, ∀ m : ℕ, 0 < m → ∀ hw, hw = HW.init numpyBackend 1 1 3 (1 / 10) 1 1 (40 / 3) false true →
    ∃ dt : ℝ, 0 < dt ∧ ∃ (p : ℕ) (A : Gen.Arith (Rd (Rounded.binary p))) (x0 : Gen.State (Rd (Rounded.binary p))),
      ∀ k : ℕ, 0 < k → k * dt ≤ 5 → ∃ x v, Gen.iterate (floatStep A hw (2 * Real.pi / m) (.rk4 dt)) k x0 = .ok x ∧
        Gen.get_gamma_n A x.density x.phi ⟨2 * Real.pi / m⟩ = .ok v ∧
        |v.val - 2 / 3 * amp (k * dt) ^ 2| ≤ C * (2 * Real.pi / m) ^ 2 := by
  obtain ⟨C, -, H⟩ := C138_properties_converge _ (by norm_num) (by norm_num) (by positivity) le_rfl (by norm_num)
    (drift_wave 5)
  refine ⟨C, fun m hm hw ehw => ?_⟩
  have hm' : (m : ℝ) ≠ 0 := by positivity
  have hb : Std hw.backend m m := by rw [ehw]; exact .inl rfl
  obtain ⟨s, hs, hc, h1, h2⟩ := exists_sampled_state hw (2 * Real.pi / m) hm hm hb true
    (modeFam (5 / 3 * amp 0) (4 / 3 * amp 0) (4 * 0) 0 0) (modeFam (- amp 0) 0 (4 * 0) 0 0)
  obtain ⟨δ, hδ, H⟩ := H m (2 * Real.pi / m) hm (by field_simp) numpyBackend 1 1 true (.inl rfl) hw ehw s hs hc h1 h2
  obtain ⟨p, A, η, η0, hp, hA⟩ := C103_arithmetic_exists (hw := hw) hm hm hb (2 * Real.pi / m) (δ * δ) (by positivity)
  have hA' : Accurate A numpyBackend η m m ⟨2 * Real.pi / m⟩ := by rw [ehw] at hA; exact hA
  let x0 : Gen.State (Rd (Rounded.binary p)) :=
    ⟨tab m m fun i j => ⟨(arrOf s "density").at' i j⟩, tab m m fun i j => ⟨(arrOf s "omega").at' i j⟩,
      tab m m fun i j => ⟨(arrOf s "phi").at' i j⟩⟩
  have hx : FloatClose m m (2 ^ (-(p : ℤ)) + η) x0 s := by
    refine ⟨⟨rfl, rfl⟩, ⟨rfl, rfl⟩, ⟨rfl, rfl⟩, fun i j hi hj => ?_⟩
    have : (0 : ℝ) ≤ 2 ^ (-(p : ℤ)) + η := by positivity
    simp only [x0, tab_at' _ _ _ hi hj, sub_self, abs_zero, this, and_self]
  refine ⟨δ, hδ, p, A, x0, fun k hk hkT => ?_⟩
  obtain ⟨x, e, q⟩ := H δ hδ le_rfl _ _ A (exactSpectra _) η (by positivity) η0 hp hA' (exactSpectra_accurate _ η0 hm _) _ (.inl rfl)
    x0 hx k hk hkT
  obtain ⟨v, v1, v2⟩ := q "gamma_n" (by decide) (fun h => absurd h (by decide))
  exact ⟨x, v, e, v1, by rw [← wave_flux]; exact v2⟩

/-- energies of binary floating-point arrays, as accurate as wanted -/
example (ε : ℝ) (hε : 0 < ε) : ∃ (p : ℕ) (A : Gen.Arith (Rd (Rounded.binary p))), ∀ n q o : Arr (Rd (Rounded.binary p)),
    Bounded 8 8 n 10 → Bounded 8 8 q 10 → Bounded 8 8 o 10 → ∃ v e, Gen.get_energy A n q ⟨1⟩ = .ok v ∧
      Properties.get_energy (exactly n) (exactly q) 1 = .ok e ∧ |v.val - e| ≤ ε := by
  obtain ⟨C, hC, H⟩ := C138_property_rounding (m := 8) (by decide) (b := numpyBackend) (.inl rfl) (dx := 1) one_ne_zero 1 10
  obtain ⟨p, A, η, η0, hp, hA⟩ := C103_arithmetic_exists (hw := HW.init numpyBackend 1 1 1 1 1) (h := 8) (w := 8) (by decide)
    (by decide) (.inl rfl) 1 (min (ε / (C + 1)) (1 / 28)) (by positivity)
  refine ⟨p, A, fun n q o h1 h2 h3 => ?_⟩
  obtain ⟨v, e, v1, v2, v3⟩ := H _ _ A (exactSpectra _) η (by positivity) η0 (by linarith [hp.trans (min_le_right _ _)]) hA
    (exactSpectra_accurate _ η0 (by decide) _) n q o h1 h2 h3 "energy" (by decide)
  refine ⟨v, e, v1, v2, v3.trans ?_⟩
  have := hp.trans (min_le_left _ _)
  rw [le_div_iff₀ (by positivity)] at this
  have h0 : (0 : ℝ) ≤ 2 ^ (-(p : ℤ)) := by positivity
  nlinarith

end Verif.Props
