import Verif.Props.MeasuredFloat

/-!
# Property theorem C139: quantities computed from a stored floating-point file

C138 compares the quantities `run2` records next to the frames with those of the equations.  Here they are computed from
the stored, rounded frames by `calculate_properties`, at the end of `run` and of `run2`.
-/

set_option linter.unusedSectionVars false

namespace Verif.Props

open H5IO H5 Run Run2 RunProperties Arr Spec Set Rounding

/-- The property functions, called with stored arrays, have accuracy `ε`: the spacing computed from the attributes of the file
is the one of the simulation; on all `m × m` arrays every property function returns a number; and on arrays whose entries are at
most `M` it is within `ε` of the exact value for the numbers read from the file. -/
structure AccurateProps {u : ℝ} {R : Rounded u} {β : Type} [Casts (Rd R) β] [Inhabited β] (E : PropEnv (Rd R) β) (k0 dx c1 : Rd R)
    (ε M : ℝ) (m : ℕ) : Prop where
  spacing : E.dx (.num k0) (.int m) = dx
  returns : ∀ N P O : Arr β, (N.h = m ∧ N.w = m) → (P.h = m ∧ P.w = m) → (O.h = m ∧ O.w = m) → ∀ name ∈ propertyTable,
    ∃ v, E.value name dx (.num c1) (.arr N) (.arr P) (.arr O) = .ok v
  value : ∀ N P O : Arr β, Bounded m m (N.map (Casts.f64 : β → Rd R)) M → Bounded m m (P.map (Casts.f64 : β → Rd R)) M →
    Bounded m m (O.map (Casts.f64 : β → Rd R)) M → ∀ name ∈ propertyTable,
    ∃ v e, E.value name dx (.num c1) (.arr N) (.arr P) (.arr O) = .ok v ∧
      propValue name dx.val c1.val (exactly (N.map (Casts.f64 : β → Rd R))) (exactly (P.map (Casts.f64 : β → Rd R)))
        (exactly (O.map (Casts.f64 : β → Rd R))) = .ok e ∧ |v.val - e| ≤ ε

section core

section fields
variable {m : ℕ} [NeZero m]

theorem exVal_lipschitz {b : Backend} (hb : Std b m m) {dx : ℝ} (hdx : dx ≠ 0) (c1 r : ℝ) {name : String}
    (hname : name ∈ propertyTable) : ∃ K, 0 ≤ K ∧ ∀ z z' : X3 m, ‖z‖ ≤ r → ‖z'‖ ≤ r →
      |exVal name dx c1 z' - exVal name dx c1 z| ≤ K * ‖z' - z‖ := by
  have : ProperSpace (X3 m) := FiniteDimensional.proper ℝ _
  obtain ⟨K, hK⟩ := ((propClose hb hdx c1 hname).1.locallyLipschitz.locallyLipschitzOn
    (s := Metric.closedBall (0 : X3 m) r)).exists_lipschitzOnWith_of_compact (isCompact_closedBall _ _)
  refine ⟨K, K.2, fun z z' hz hz' => ?_⟩
  have := hK.dist_le_mul z' (by simpa using hz') z (by simpa using hz)
  rwa [dist_eq_norm, dist_eq_norm] at this

open Gen in
/-- A property of arrays close to a density, its vorticity and the potential computed in floating point. -/
theorem near_prop {b : Backend} (hb : Std b m m) {dx : ℝ} (hdx : dx ≠ 0) (c1 r : ℝ) : ∃ Q, 0 ≤ Q ∧
    ∀ name ∈ propertyTable, ∃ C, 0 ≤ C ∧ ∀ (u : ℝ) (R : Rounded u) (A : Gen.Arith (Rd R)) (η : ℝ), 0 ≤ u → 0 ≤ η →
      28 * (u + η) ≤ 1 → Accurate A b η m m ⟨dx⟩ → ∀ n o : F (Rd R) m m, ‖ex n‖ ≤ r → ‖ex o‖ ≤ r →
      ∀ v, 0 ≤ v → v ≤ 1 → ∀ n' p' o' : Fld m m, (∀ i j, |n' i j - ex n i j| ≤ v * |ex n i j|) →
      (∀ i j, |p' i j - ex (phiG (faOf A m m ⟨dx⟩) o) i j| ≤ v * |ex (phiG (faOf A m m ⟨dx⟩) o) i j|) →
      (∀ i j, |o' i j - ex o i j| ≤ v * |ex o i j|) →
      ‖((n', p', o') : X3 m)‖ ≤ 2 * Q ∧
        |exVal name dx c1 (n', p', o') - exVal name dx c1 (ex n, phiF dx (ex o), ex o)| ≤ C * (u + η + v) := by
  obtain ⟨E, hE1, hE2⟩ := solver_exists hb dx
  have Hn : AccF (fun (m' : Mach m m dx 1 E) (z : Fld m m × Fld m m) => inj m'.R z.1) (fun z => z.1) :=
    Accurate.Acc.exact contDiff_fst fun _ _ => rfl
  have Ho : AccF (fun (m' : Mach m m dx 1 E) (z : Fld m m × Fld m m) => inj m'.R z.2) (fun z => z.2) :=
    Accurate.Acc.exact contDiff_snd fun _ _ => rfl
  have Hp := AccF.phi Ho
  have H3 := Accurate.Acc.prod Hn (Accurate.Acc.prod Hp Ho Mach.δ0) Mach.δ0
  obtain ⟨C1, hC1, h1⟩ := H3.err r
  have : ProperSpace (Fld m m × Fld m m) := FiniteDimensional.proper ℝ _
  obtain ⟨K, hK⟩ := (isCompact_closedBall (0 : Fld m m × Fld m m) r).bddAbove_image H3.smooth.continuous.norm.continuousOn
  refine ⟨|K| + C1, by positivity, fun name hname => ?_⟩
  obtain ⟨Λ, hΛ, hL⟩ := exVal_lipschitz hb hdx c1 (2 * (|K| + C1)) hname
  refine ⟨Λ * (|K| + C1), by positivity, ?_⟩
  intro u R A η u0 η0 hs hA n o hn ho v v0 v1 n' p' o' hn' hp' ho'
  let M : Mach m m dx 1 E := hA.mach hE1 1 u0 η0 (by linarith) (by linarith) (by push_cast; linarith)
  have hz : ‖((ex n, ex o) : Fld m m × Fld m m)‖ ≤ r := max_le hn ho
  have e1 : ‖((ex n, ex (phiG (faOf A m m ⟨dx⟩) o), ex o) : X3 m) - (ex n, phiG (exFa E) (ex o), ex o)‖ ≤ C1 * (u + η) :=
    h1 M (ex n, ex o) hz
  have e2 : ‖((ex n, phiG (exFa E) (ex o), ex o) : X3 m)‖ ≤ |K| := (hK ⟨(ex n, ex o), by simpa using hz, rfl⟩ : _ ≤ K).trans (le_abs_self K)
  have e5 : phiG (exFa E) (ex o) = phiF dx (ex o) := hE2 (ex o)
  rw [e5] at e1 e2
  set p : Fld m m := ex (phiG (faOf A m m ⟨dx⟩) o)
  have l1 : C1 * (u + η) ≤ C1 := mul_le_of_le_one_right hC1 (by linarith)
  have e3 : ‖((ex n, p, ex o) : X3 m)‖ ≤ |K| + C1 := by
    have t := norm_add_le (((ex n, p, ex o) : X3 m) - (ex n, phiF dx (ex o), ex o)) (ex n, phiF dx (ex o), ex o)
    rw [sub_add_cancel] at t
    linarith
  have near : ∀ f g : Fld m m, ‖f‖ ≤ |K| + C1 → (∀ i j, |g i j - f i j| ≤ v * |f i j|) → ‖g - f‖ ≤ v * (|K| + C1) := by
    intro f g hf hg
    refine Fld.norm_le (by positivity) fun i j => (hg i j).trans ?_
    exact mul_le_mul_of_nonneg_left ((Fld.le_norm f i j).trans hf) v0
  have n1 : ‖ex n‖ ≤ |K| + C1 := (norm_fst_le ((ex n, p, ex o) : X3 m)).trans e3
  have n2 : ‖p‖ ≤ |K| + C1 := ((norm_fst_le (p, ex o)).trans (norm_snd_le ((ex n, p, ex o) : X3 m))).trans e3
  have n3 : ‖ex o‖ ≤ |K| + C1 := ((norm_snd_le (p, ex o)).trans (norm_snd_le ((ex n, p, ex o) : X3 m))).trans e3
  have e4 : ‖((n', p', o') : X3 m) - (ex n, p, ex o)‖ ≤ v * (|K| + C1) :=
    max_le (near _ _ n1 hn') (max_le (near _ _ n2 hp') (near _ _ n3 ho'))
  have l2 : v * (|K| + C1) ≤ |K| + C1 := mul_le_of_le_one_left (by positivity) v1
  have e6 : ‖((n', p', o') : X3 m)‖ ≤ 2 * (|K| + C1) := by
    have t := norm_add_le (((n', p', o') : X3 m) - (ex n, p, ex o)) (ex n, p, ex o)
    rw [sub_add_cancel] at t
    linarith
  refine ⟨e6, ?_⟩
  have k1 := hL _ _ (by linarith [abs_nonneg K] : ‖((ex n, phiF dx (ex o), ex o) : X3 m)‖ ≤ _) e6
  refine k1.trans ?_
  have t := norm_add_le (((n', p', o') : X3 m) - (ex n, p, ex o)) (((ex n, p, ex o) : X3 m) - (ex n, phiF dx (ex o), ex o))
  rw [sub_add_sub_cancel] at t
  rw [mul_assoc]
  refine mul_le_mul_of_nonneg_left (t.trans ?_) hΛ
  have : 0 ≤ |K| * (u + η) := by positivity
  nlinarith

end fields

/-- The properties of stored arrays of states close to the solution. -/
theorem stored_core (P : Params) {L T B : ℝ} {r : ℕ} (hT : 0 ≤ T) (hL : 0 < L) (hr : 4 ≤ r)
    {nf wf pf : ℝ → ℕ → ℕ → ℝ → ℝ → ℝ} (H : HWSolution P L L T r B nf wf pf) {K : ℝ} (hK : 0 ≤ K) :
    ∃ C, 0 ≤ C ∧ ∀ (m : ℕ) (b : Backend), 0 < m → Std b m m →
      ∃ δ M, 0 < δ ∧ ∀ (u : ℝ) (R : Rounded u) (A : Gen.Arith (Rd R)) (η v ε : ℝ), 0 ≤ u → 0 ≤ η → u + η ≤ δ → 0 ≤ v → v ≤ δ →
        ε ≤ δ → ∀ (β : Type) (_ : Casts (Rd R) β) (_ : Inhabited β) (E : PropEnv (Rd R) β) (k0 dx : Rd R),
        (∀ y : Rd R, |(Casts.f64 (Casts.f32 y : β) : Rd R).val - y.val| ≤ v * |y.val|) →
        m * dx.val = L → Accurate A b η m m dx → AccurateProps E k0 dx ⟨P.c1⟩ ε M m →
        ∀ t, 0 ≤ t → t ≤ T → ∀ x : Gen.State (Rd R), (x.density.h = m ∧ x.density.w = m) → (x.omega.h = m ∧ x.omega.w = m) →
          Gen.get_phi A x.omega dx = .ok x.phi →
          rms m m (floatErr dx.val x.density (nf t 0 0)) ≤ K * dx.val ^ 2 →
          rms m m (floatErr dx.val x.omega (wf t 0 0)) ≤ K * dx.val ^ 2 →
          (∀ i j, i < m → j < m → |floatErr dx.val x.density (nf t 0 0) i j| ≤ K * dx.val) →
          (∀ i j, i < m → j < m → |floatErr dx.val x.omega (wf t 0 0) i j| ≤ K * dx.val) →
          ∀ name ∈ propertyTable, (name = "gamma_n_spectral" → Even m) →
            ∃ w, E.value name dx (.num ⟨P.c1⟩) (.arr (x.density.map Casts.f32)) (.arr (x.phi.map Casts.f32))
                (.arr (x.omega.map Casts.f32)) = .ok w ∧
              |w.val - physical L L P.c1 (nf t) (wf t) (pf t) name| ≤ C * dx.val ^ 2 := by
  have hB : 0 ≤ B := (H.smoothN 0 ⟨le_rfl, hT⟩).nonneg
  have hM : 0 ≤ measK P.c1 K B L := by
    unfold measK
    refine mul_nonneg (by positivity) (prodK_nonneg ?_ (by positivity) _)
    have := errK_nonneg hK B
    have := poin_nonneg L
    unfold fieldK
    positivity
  refine ⟨3 + measK P.c1 K B L, by positivity, fun m b hm hb => ?_⟩
  have : NeZero m := ⟨hm.ne'⟩
  have hm' : (1 : ℝ) ≤ m := by exact_mod_cast hm
  set dx := L / m with hdx
  have hdx0 : 0 < dx := by positivity
  have hmd : m * dx = L := by rw [hdx]; field_simp
  have hdL : dx ≤ L := by rw [← hmd]; exact le_mul_of_one_le_left hdx0.le hm'
  obtain ⟨Q, hQ, near⟩ := near_prop hb hdx0.ne' P.c1 (B + K * L)
  have key : ∀ name : String, ∃ C : ℝ, 0 ≤ C ∧ (name ∈ propertyTable →
      ∀ (u : ℝ) (R : Rounded u) (A : Gen.Arith (Rd R)) (η : ℝ), 0 ≤ u → 0 ≤ η →
      28 * (u + η) ≤ 1 → Accurate A b η m m ⟨dx⟩ → ∀ n o : Gen.F (Rd R) m m, ‖ex n‖ ≤ B + K * L → ‖ex o‖ ≤ B + K * L →
      ∀ v, 0 ≤ v → v ≤ 1 → ∀ n' p' o' : Fld m m, (∀ i j, |n' i j - ex n i j| ≤ v * |ex n i j|) →
      (∀ i j, |p' i j - ex (Gen.phiG (faOf A m m ⟨dx⟩) o) i j| ≤ v * |ex (Gen.phiG (faOf A m m ⟨dx⟩) o) i j|) →
      (∀ i j, |o' i j - ex o i j| ≤ v * |ex o i j|) →
      ‖((n', p', o') : X3 m)‖ ≤ 2 * Q ∧
        |exVal name dx P.c1 (n', p', o') - exVal name dx P.c1 (ex n, phiF dx (ex o), ex o)| ≤ C * (u + η + v)) := fun name => by
    by_cases h : name ∈ propertyTable
    · obtain ⟨C, hC, H⟩ := near name h
      exact ⟨C, hC, fun _ => H⟩
    · exact ⟨0, le_rfl, fun q => absurd q h⟩
  choose C hC HC using key
  have hsum : ∀ name ∈ propertyTable, C name ≤ (propertyTable.map C).sum := fun name hname =>
    List.single_le_sum (by
      intro x hx
      obtain ⟨name, -, rfl⟩ := List.mem_map.1 hx
      exact hC name) _ (List.mem_map.2 ⟨name, hname, rfl⟩)
  have hS0 : 0 ≤ (propertyTable.map C).sum := List.sum_nonneg fun x hx => by
    obtain ⟨name, -, rfl⟩ := List.mem_map.1 hx
    exact hC name
  generalize (propertyTable.map C).sum = S at hsum hS0
  refine ⟨min (1 / 28) (dx ^ 2 / (S + 1)), 2 * Q, by positivity, ?_⟩
  intro u R A η v ε u0 η0 hδ v0 hv hε β _ _ E k0 dx' hcast hsp hA hE t t0 htT x d1 d2 hphi r1 r2 p1 p2 name hname hev
  have ed : dx'.val = dx := by
    rw [hdx]; field_simp; linarith
  have ed' : dx' = ⟨dx⟩ := by rw [← ed]
  obtain ⟨X, Y, W⟩ := x
  simp only at d1 d2 hphi r1 r2 p1 p2 ⊢
  rw [ed] at r1 r2 p1 p2 ⊢
  rw [ed'] at hA hphi hE ⊢
  obtain ⟨n, rfl⟩ := field_of (m := m) d1
  obtain ⟨o, rfl⟩ := field_of (m := m) d2
  have tt : t ∈ Icc 0 T := ⟨t0, htT⟩
  have hW : W = ofField (Gen.phiG (faOf A m m ⟨dx⟩) o) := by
    have := Gen.get_phi_ofF hA.evals o
    rw [hphi] at this
    injection this
  subst hW
  have l28 : 28 * (u + η) ≤ 1 := by
    have := hδ.trans (min_le_left _ _)
    linarith
  have lS : (S + 1) * (u + η) ≤ dx ^ 2 := by
    have := hδ.trans (min_le_right _ _)
    rw [le_div_iff₀ (by linarith)] at this
    linarith
  have lv : (S + 1) * v ≤ dx ^ 2 := by
    have := hv.trans (min_le_right _ _)
    rw [le_div_iff₀ (by linarith)] at this
    linarith
  have lε : ε ≤ dx ^ 2 := by
    refine (hε.trans (min_le_right _ _)).trans ?_
    exact div_le_self (by positivity) (by linarith)
  have v1 : v ≤ 1 := (hv.trans (min_le_left _ _)).trans (by norm_num)
  have hKL : K * dx ≤ K * L := mul_le_mul_of_nonneg_left hdL hK
  have b1 : ‖ex n‖ ≤ B + K * L := (norm_of_float ((H.smoothN _ tt).bound 0 0 (by omega)) p1).trans (by linarith)
  have b2 : ‖ex o‖ ≤ B + K * L := (norm_of_float ((H.smoothO _ tt).bound 0 0 (by omega)) p2).trans (by linarith)
  -- the numbers read from the file
  let rd : Gen.F (Rd R) m m → Gen.F (Rd R) m m := fun f i j => Casts.f64 (Casts.f32 (f i j) : β)
  have hrd : ∀ f : Gen.F (Rd R) m m, ((ofField f).map (Casts.f32 : Rd R → β)).map (Casts.f64 : β → Rd R) = ofField (rd f) := by
    intro f
    rw [map_ofField, map_ofField]
  have hnear : ∀ (f : Gen.F (Rd R) m m) i j, |ex (rd f) i j - ex f i j| ≤ v * |ex f i j| := fun f i j => hcast (f i j)
  obtain ⟨q1, q2⟩ := HC name hname u R A η u0 η0 l28 hA n o b1 b2 v v0 v1 (ex (rd n))
    (ex (rd (Gen.phiG (faOf A m m ⟨dx⟩) o))) (ex (rd o)) (hnear n) (hnear _) (hnear o)
  have bd : ∀ f : Gen.F (Rd R) m m, ‖ex f‖ ≤ 2 * Q → Bounded m m (ofField f) (2 * Q) := fun f hf =>
    bounded_ofF fun i j => (Gen.Fld.le_norm _ i j).trans hf
  obtain ⟨w, e, w1, w2, w3⟩ := hE.value ((ofField n).map Casts.f32) ((ofField (Gen.phiG (faOf A m m ⟨dx⟩) o)).map Casts.f32)
    ((ofField o).map Casts.f32)
    (by rw [hrd]; exact bd _ ((norm_fst_le ((ex (rd n), ex (rd (Gen.phiG (faOf A m m ⟨dx⟩) o)), ex (rd o)) : X3 m)).trans q1))
    (by
      rw [hrd]
      exact bd _ (((norm_fst_le (ex (rd (Gen.phiG (faOf A m m ⟨dx⟩) o)), ex (rd o))).trans
        (norm_snd_le ((ex (rd n), ex (rd (Gen.phiG (faOf A m m ⟨dx⟩) o)), ex (rd o)) : X3 m))).trans q1))
    (by
      rw [hrd]
      exact bd _ (((norm_snd_le (ex (rd (Gen.phiG (faOf A m m ⟨dx⟩) o)), ex (rd o))).trans
        (norm_snd_le ((ex (rd n), ex (rd (Gen.phiG (faOf A m m ⟨dx⟩) o)), ex (rd o)) : X3 m))).trans q1)) name hname
  refine ⟨w, w1, ?_⟩
  rw [hrd, hrd, hrd, exactly_ofF, exactly_ofF, exactly_ofF] at w2
  have ee : exVal name dx P.c1 (ex (rd n), ex (rd (Gen.phiG (faOf A m m ⟨dx⟩) o)), ex (rd o)) = e := exVal_of w2
  obtain ⟨y, y1, y2⟩ := measured_ofField (c1 := P.c1) hr hK (H.smoothN _ tt) (H.smoothO _ tt) (H.smoothP _ tt)
    (H.periodicN _ tt) (H.periodicO _ tt) (H.periodicP _ tt) (H.poisson _ tt) (H.meanP _ tt) hdx0 hmd
    (small_of_float r1) (small_of_float r2) hname hev
  have ey : exVal name dx P.c1 (ex n, phiF dx (ex o), ex o) = y := exVal_of y1
  rw [ee, ey] at q2
  have t1 := abs_add_le (w.val - e) (e - y)
  rw [sub_add_sub_cancel] at t1
  have t2 := abs_add_le (w.val - y) (y - physical L L P.c1 (nf t) (wf t) (pf t) name)
  rw [sub_add_sub_cancel] at t2
  have t3 : C name * (u + η + v) ≤ 2 * dx ^ 2 := by
    have : C name * (u + η + v) ≤ (S + 1) * (u + η + v) := mul_le_mul_of_nonneg_right (by linarith [hsum name hname]) (by linarith)
    linarith
  linarith

end core

section files
variable {α β : Type} [Casts α β] [Zero α] [Inhabited α] [Inhabited β] [FloatOps α]

/-- `v` is the property `name` of the recorded fields of the frame `fr`, as computed from the file -/
def FromFrame (E : Env α β) (a : Args α) (ns : ℕ) (name : String) (fr : α × NS (Cell α)) (v : α) : Prop :=
  ∃ n p o, IsFrameRow E a.downsample_factor "density" fr.1 fr.2 n ∧ IsFrameRow E a.downsample_factor "phi" fr.1 fr.2 p ∧
    IsFrameRow E a.downsample_factor "omega" fr.1 fr.2 o ∧
    E.props.value name (E.props.dx (.num a.k0) (.int ns)) (.num a.c1) n p o = .ok v

/-- every property asked for is known and can be computed from every frame of `frs` -/
def FramesDefined (E : Env α β) (a : Args α) (ns : ℕ) (frs : List (α × NS (Cell α))) : Prop :=
  ∀ name ∈ a.properties, name ∈ propertyTable ∧ ∀ fr ∈ frs, ∀ n p o,
    IsFrameRow E a.downsample_factor "density" fr.1 fr.2 n → IsFrameRow E a.downsample_factor "phi" fr.1 fr.2 p →
    IsFrameRow E a.downsample_factor "omega" fr.1 fr.2 o →
    ∃ v, E.props.value name (E.props.dx (.num a.k0) (.int ns)) (.num a.c1) n p o = .ok v

theorem forall₂_at {X Y : Type} {P : X → Y → Prop} {l : List X} {r : List Y} (h : List.Forall₂ P l r) {i : ℕ} (hi : i < l.length)
    (hi' : i < r.length) : P l[i] r[i] := (List.forall₂_iff_get.1 h).2 i hi hi'

/-- the properties in the file of a new run -/
theorem run_fromFrames {E : Env α β} {a : Args α} {σ : St α β} {hw : Solver α} {ns m : ℕ} {steps : ℤ}
    {S : ℕ → NS (Cell α)} (h : FreshRun E a σ hw ns steps m S) (hv : FramesDefined E a ns (frames a S m)) :
    (run E a σ).1 = .ok () ∧ ∃ f, (run E a σ).2.fs a.output_path = some f ∧ ∀ name ∈ a.properties, ∃ vs : List α,
      f.dsets name = some (.flat (vs.map Casts.f32)) ∧ List.Forall₂ (FromFrame E a ns name) (frames a S m) vs := by
  obtain ⟨σ', f', buf', i', e1, -, e2, e3⟩ := run_fresh h
  have hσ : σ'.fs a.output_path = some (finalFile f' buf' i') := by rw [e2, upd_same]
  have hfr := allSaves_ok h
  obtain ⟨n, n1, n2⟩ := final_rows h.buffer h.saves hfr e1 (show "density" ∈ "time" :: fieldList by simp [fieldList])
  obtain ⟨p, p1, p2⟩ := final_rows h.buffer h.saves hfr e1 (show "phi" ∈ "time" :: fieldList by simp [fieldList])
  obtain ⟨o, o1, o2⟩ := final_rows h.buffer h.saves hfr e1 (show "omega" ∈ "time" :: fieldList by simp [fieldList])
  have hlen := n2.length_eq
  have hat : ∀ k, (finalFile f' buf' i').attrs k = (runParams a ns).get? k := by
    intro k
    rw [finalFile_attrs]
    have := afterSaves_attrs (L := a.buffer_length) (allSaves E a S m) (runFile a ns : H5 α β)
      (zeroBuffer (α := α) a.buffer_length ns ns) 0
    rw [e1] at this
    simp only at this
    rw [this, runFile_attrs]
  have hf : RunFile (finalFile f' buf' i') (.num a.k0) (.int ns) (.num a.c1) n p o := by
    refine ⟨?_, ?_, ?_, ⟨.num (FloatOps.mul a.step_size (FloatOps.ofInt a.snaps)), ?_⟩, ⟨_, n1⟩, ⟨_, p1⟩, ⟨_, o1⟩,
      p2.length_eq.symm.trans hlen, o2.length_eq.symm.trans hlen⟩
    iterate 4
      · rw [hat]
        unfold runParams get_save_params
        simp only [NS.get?_set]
        simp [Args.physics, NS.get?]
  by_cases hp : a.properties = []
  · rw [e3, hp]
    exact ⟨rfl, _, hσ, by simp⟩
  · have hnm : ∀ k, k ∈ ["density", "phi", "omega"] → k ∉ a.properties := by
      intro k hk hka
      have := (hv k hka).1
      simp only [List.mem_cons, List.not_mem_nil, or_false] at hk
      rcases hk with rfl | rfl | rfl <;> simp [Spec.propertyTable] at this
    obtain ⟨σ'', f, c1, c2, -, c4, -⟩ := C56_batch_independent E.props a.output_path σ' _ hσ _ _ _ n p o hf
      a.properties ⟨hnm _ (by simp), hnm _ (by simp), hnm _ (by simp)⟩ true (fun name _ h2 i hi =>
        (hv name h2).2 _ (List.getElem_mem (hlen ▸ hi)) _ _ _ (forall₂_at n2 _ hi) (forall₂_at p2 (hlen ▸ hi) _)
          (forall₂_at o2 (hlen ▸ hi) _))
      a.buffer_length h.buffer
    rw [e3, if_pos (by simpa using hp), c1]
    refine ⟨rfl, f, c2, fun name hname => ?_⟩
    obtain ⟨vs, d1, d2, d3⟩ := c4 name hname (hv name hname).1 (Or.inl rfl)
    refine ⟨vs, d1, List.forall₂_iff_get.2 ⟨by rw [d2, hlen], fun i hi hi' => ?_⟩⟩
    have hin : i < n.length := hlen ▸ hi
    exact ⟨_, _, _, forall₂_at n2 hi hin, forall₂_at p2 hi (by rw [← p2.length_eq]; exact hi),
      forall₂_at o2 hi (by rw [← o2.length_eq]; exact hi), d3 i hin⟩

/-- the properties in the file of a new run of `run2` -/
theorem run2_fromFrames {E : Env2 α β} {a : Args2 α} {σ : St α β} {hw : Solver α} {ns m fuel : ℕ}
    {S : ℕ → NS (Cell α)} (h : FreshRun2 E a σ hw ns m S) (hfuel : m < fuel)
    (hend : FloatOps.lt a.recording_start_time (timeAt E a (FloatOps.ofInt 0) m) = true)
    (hv : FramesDefined E.toEnv a.toArgs ns (frames2 E a S m)) :
    (run2 E a fuel σ).1 = .ok (some ()) ∧ ∃ f, (run2 E a fuel σ).2.fs a.output_path = some f ∧ ∀ name ∈ a.properties,
      ∃ vs : List α, f.dsets name = some (.flat (vs.map Casts.f32)) ∧
        List.Forall₂ (FromFrame E.toEnv a.toArgs ns name) (frames2 E a S m) vs := by
  obtain ⟨σ2, f0, e1, e2, e3, e4, -⟩ := fresh2_before h hfuel
  have hw2 : written2 a (timeAt E a (FloatOps.ofInt 0) m) (frames2 E a S m) = frames2 E a S m := by
    unfold written2 flushes2
    simp only [hend, if_true]
  rw [hw2] at e4
  obtain ⟨n, n1, n2⟩ := e4 "density" (by simp [fieldList])
  obtain ⟨p, p1, p2⟩ := e4 "phi" (by simp [fieldList])
  obtain ⟨o, o1, o2⟩ := e4 "omega" (by simp [fieldList])
  have hlen := n2.length_eq
  have hf0 : RunFile f0 (.num a.k0) (.int ns) (.num a.c1) n p o := by
    refine ⟨?_, ?_, ?_, ⟨.num (FloatOps.mul a.step_size (FloatOps.ofInt a.snaps)), ?_⟩, ⟨_, n1⟩, ⟨_, p1⟩, ⟨_, o1⟩,
      p2.length_eq.symm.trans n2.length_eq, o2.length_eq.symm.trans n2.length_eq⟩
    iterate 4
      · rw [e3]
        unfold runParams2 get_save_params
        simp only [NS.get?_set]
        simp [Args2.physics2, Args.physics, NS.get?]
  obtain ⟨r1, f', r2, -, -, r5⟩ := does_finalProps (fun name hname => (hv name hname).1) h.buffer e2 hf0
    (fun name hname i hi => (hv name hname).2 _ (List.getElem_mem (hlen ▸ hi)) _ _ _ (forall₂_at n2 (hlen ▸ hi) hi)
      (forall₂_at p2 (hlen ▸ hi) _) (forall₂_at o2 (hlen ▸ hi) _))
  rw [← e1] at r1 r2
  refine ⟨r1, f', r2, fun name hname => ?_⟩
  obtain ⟨vs, d1, d2, d3⟩ := r5 name hname
  refine ⟨vs, d1, List.forall₂_iff_get.2 ⟨by rw [d2, hlen], fun i hi hi' => ?_⟩⟩
  have hin : i < n.length := hlen ▸ hi
  exact ⟨_, _, _, forall₂_at n2 hi hin, forall₂_at p2 hi (by rw [← p2.length_eq]; exact hi),
    forall₂_at o2 hi (by rw [← o2.length_eq]; exact hi), d3 i hin⟩

end files

/-- the recorded array of a field, without downsampling -/
theorem frameRow_full {u : ℝ} {R : Rounded u} {β : Type} [Casts (Rd R) β] {E : Env (Rd R) β} {factor : Rd R} (hf : factor.val = 1)
    {k : String} (hk : k ≠ "time") {t : Rd R} {s : NS (Cell (Rd R))} {row : Cell β} (h : IsFrameRow E factor k t s row)
    {X : Arr (Rd R)} (hX : s.get? k = some (.arr X)) : row = .arr (X.map Casts.f32) := by
  unfold IsFrameRow at h
  rw [if_neg hk] at h
  obtain ⟨A, W, w1, w2, w3⟩ := h
  have hd : downsampling factor = false := by
    simp [downsampling, FloatOps.eq, FloatOps.ofInt, hf]
  unfold recordedValue at w2
  rw [hd] at w2
  simp only [Bool.false_eq_true, if_false] at w2
  injection w2 with w2
  injection w2 with w2
  subst w2
  rw [hX] at w1
  injection w1 with w1
  injection w1 with w1
  rw [w3, w1]

theorem iterate_of_steps {α : Type} {step : Gen.State α → Py (Gen.State α)} {x : ℕ → Gen.State α}
    (h : ∀ k, step (x k) = .ok (x (k + 1))) (k : ℕ) : ∀ j, Gen.iterate step k (x j) = .ok (x (j + k)) := by
  induction k with
  | zero => exact fun _ => rfl
  | succ k ih =>
    intro j
    unfold Gen.iterate
    rw [h j, Py.ok_bind, ih (j + 1)]
    congr 2
    omega

/-- **C139, run.** Let `n, w, p` be a smooth solution of the Hasegawa–Wakatani equations on the box `[0, L]²` and the interval
`[0, T]`.  There is one constant `C` such that for every grid size there are `δ > 0` and `M` with: every call of `run` to a new
file in floating-point arithmetic as in C134, with properties of `property_mapping` asked for, where storing a number changes it
by at most `v ≤ δ` relatively and the property functions, applied to stored arrays with entries of at most `M`, are accurate to
`ε ≤ δ`, returns normally and writes one dataset per property with one number per frame.  The number of a frame `j ≥ 1` is,
before it is rounded to be stored, within `C dx²` of the physical quantity of that name of the solution at the time
`t = j snaps step_size ≤ T`. -/
theorem C139_run_file_properties (P : Params) (hnu : 0 ≤ P.nu) {L T B : ℝ} {r : ℕ} (hT : 0 ≤ T) (hL : 0 < L)
    (hr : 4 ≤ r) (hr' : 2 * P.N + 2 ≤ r) {nf wf pf : ℝ → ℕ → ℕ → ℝ → ℝ → ℝ} (H : HWSolution P L L T r B nf wf pf) :
    ∃ C, 0 ≤ C ∧ ∀ (m : ℕ) (b : Backend), 0 < m → Std b m m →
      ∃ δ M, 0 < δ ∧ ∀ (u : ℝ) (R : Rounded u) (A : Gen.Arith (Rd R)) (η v ε : ℝ), 0 ≤ u → 0 ≤ η → 0 ≤ v → v ≤ δ → ε ≤ δ →
        ∀ (β : Type) (_ : Casts (Rd R) β) (_ : Inhabited β) (E : Env (Rd R) β) (a : Args (Rd R)) (σ : St (Rd R) β),
        (∀ x : Rd R, |(Casts.f64 (Casts.f32 x : β) : Rd R).val - x.val| ≤ v * |x.val|) →
        Accurate A b η m m a.dx → AccurateProps E.props a.k0 a.dx a.c1 ε M m →
        FloatPoses E A { a with properties := [] } σ P L (nf 0 0 0) (wf 0 0 0) (u + η) m →
        a.step_size.val ≤ δ → u + η ≤ δ * a.step_size.val → (∀ name ∈ a.properties, name ∈ propertyTable) →
        (run E a σ).1 = .ok () ∧ ∃ f : H5 (Rd R) β, (run E a σ).2.fs a.output_path = some f ∧
          ∀ name ∈ a.properties, ∃ vs : List (Rd R), f.dsets name = some (.flat (vs.map Casts.f32)) ∧
            vs.length = floatSteps a / a.snaps + 1 ∧
            ((name = "gamma_n_spectral" → Even m) →
              ∀ j (hj : j < vs.length), j ≠ 0 → ∀ t, t = (j * a.snaps : ℕ) * a.step_size.val → t ≤ T →
                |vs[j].val - physical L L P.c1 (nf t) (wf t) (pf t) name| ≤ C * a.dx.val ^ 2) := by
  obtain ⟨K, hK, HK⟩ := float_core P hnu hT hL hr hr' H
  obtain ⟨C, hC, HC⟩ := stored_core P hT hL hr H hK
  refine ⟨C, hC, fun m b hm hb => ?_⟩
  obtain ⟨δ1, hδ1, HK⟩ := HK m b hm hb
  obtain ⟨δ2, M, hδ2, HC⟩ := HC m b hm hb
  refine ⟨min (min δ1 δ2) 1, M, by positivity, ?_⟩
  intro u R A η v ε u0 η0 v0 hv hε β _ _ E a σ hcast hA hE hp hle hprec hnames
  have hdt : 0 < a.step_size.val := hp.step
  have l1 : a.step_size.val ≤ δ1 := hle.trans ((min_le_left _ _).trans (min_le_left _ _))
  have l2 : a.step_size.val ≤ 1 := hle.trans (min_le_right _ _)
  have d2 : min (min δ1 δ2) 1 ≤ δ2 := (min_le_left _ _).trans (min_le_right _ _)
  have p1 : u + η ≤ δ1 * a.step_size.val :=
    hprec.trans (mul_le_mul_of_nonneg_right ((min_le_left _ _).trans (min_le_left _ _)) hdt.le)
  have p2 : u + η ≤ δ2 :=
    (hprec.trans (mul_le_mul_of_nonneg_right d2 hdt.le)).trans (mul_le_of_le_one_right hδ2.le l2)
  obtain ⟨X, hX, hX'⟩ := hp.density
  obtain ⟨Y, hY, hY'⟩ := hp.omega
  obtain ⟨V, hV, hV'⟩ := hp.phi
  obtain ⟨s28, Z, x, hZ, x0, x1, x2, hx⟩ := HK u R A η u0 η0 a.dx a.step_size hp.spacing hp.step hA l1 p1 X Y hX' hY'
  have hZ' : Z.h = m ∧ Z.w = m := by
    have := (x1 0).2.2
    rw [x0] at this
    exact this
  obtain ⟨x', S, hx', hS, -, -, hF⟩ := fresh_float hp hm hA hX ⟨hX'.1, hX'.2.1⟩ hY ⟨hY'.1, hY'.2.1⟩ hZ hZ'
  have hxx : ∀ k, x' k = x k := by
    intro k
    have e1 := hx' k
    have e2 := iterate_of_steps (step := floatStep A (poseHW b a.dx.val P) a.dx.val (.rk4 a.step_size.val)) (x := x) x2 k 0
    rw [x0, Nat.zero_add] at e2
    exact (Except.ok.inj (e2.symm.trans e1)).symm
  obtain rfl : x' = x := funext hxx
  have hF' : FreshRun E a σ (Gen.solver A (machineCoeffs R (poseHW b a.dx.val P))) m
      (truncZ (R.div (R.sub a.end_time.val 0) a.step_size.val)) (floatSteps a) S := { hF with }
  have hfull : a.downsample_factor.val = 1 := hp.full
  have h0 : FloatOps.eq a.recording_start_time (FloatOps.ofInt 0) = true := by
    have : a.recording_start_time.val = 0 := hp.start
    simp [FloatOps.eq, FloatOps.ofInt, this]
  have hu1 : u ≤ 1 := by linarith
  have htime : ∀ it : ℕ, 0 ≤ R.mul it a.step_size.val := by
    intro it
    have q := (abs_le.1 (R.mul_err it a.step_size.val)).1
    have q2 : 0 ≤ (it : ℝ) * a.step_size.val := by positivity
    rw [abs_of_nonneg q2] at q
    nlinarith
  have hfr : frames a S (floatSteps a) = (List.range (floatSteps a / a.snaps + 1)).map (frameAt a S) :=
    frames_from_zero h0 fun it _ _ => by
      have : a.recording_start_time.val = 0 := hp.start
      simp only [FloatOps.le, stepTime, FloatOps.mul, FloatOps.ofInt, this, Int.cast_natCast, decide_eq_true_eq]
      exact htime it
  -- the fields of every frame
  have hfield : ∀ fr ∈ frames a S (floatSteps a), ∀ k ∈ ["density", "phi", "omega"], ∃ W : Arr (Rd R),
      fr.2.get? k = some (.arr W) ∧ W.h = m ∧ W.w = m := by
    intro fr hmem k hk
    rw [hfr] at hmem
    obtain ⟨j, -, rfl⟩ := List.mem_map.1 hmem
    unfold frameAt
    simp only [List.mem_cons, List.not_mem_nil, or_false] at hk
    split
    · rcases hk with rfl | rfl | rfl
      · exact ⟨X, by rw [← hX]; rfl, hX'.1, hX'.2.1⟩
      · exact ⟨V, by rw [← hV]; rfl, hV'⟩
      · exact ⟨Y, by rw [← hY]; rfl, hY'.1, hY'.2.1⟩
    · obtain ⟨S1, S2, S3⟩ := hS (j * a.snaps)
      obtain ⟨q1, q2, q3⟩ := x1 (j * a.snaps)
      rcases hk with rfl | rfl | rfl
      · exact ⟨_, S1, q1⟩
      · exact ⟨_, S3, q3⟩
      · exact ⟨_, S2, q2⟩
  have hdef : FramesDefined E a m (frames a S (floatSteps a)) := by
    refine fun name hname => ⟨hnames _ hname, fun fr hmem n p o hn hp ho => ?_⟩
    obtain ⟨N, n1, n2⟩ := hfield fr hmem "density" (by simp)
    obtain ⟨Q, q1, q2⟩ := hfield fr hmem "phi" (by simp)
    obtain ⟨O, o1, o2⟩ := hfield fr hmem "omega" (by simp)
    rw [frameRow_full hfull (by decide) hn n1, frameRow_full hfull (by decide) hp q1, frameRow_full hfull (by decide) ho o1,
      hE.spacing]
    exact hE.returns _ _ _ n2 q2 o2 name (hnames _ hname)
  obtain ⟨g1, f, g2, g3⟩ := run_fromFrames hF' hdef
  refine ⟨g1, f, g2, fun name hname => ?_⟩
  obtain ⟨vs, v1, v2⟩ := g3 name hname
  have hlen := v2.length_eq
  have hflen : (frames a S (floatSteps a)).length = floatSteps a / a.snaps + 1 := by
    rw [hfr, List.length_map, List.length_range]
  refine ⟨vs, v1, by rw [← hlen, hflen], fun hev j hj hj0 t ht htT => ?_⟩
  have hjl : j < (frames a S (floatSteps a)).length := by rw [hlen]; exact hj
  obtain ⟨n, p, o, w1, w2, w3, w4⟩ := forall₂_at v2 hjl hj
  have hfj : (frames a S (floatSteps a))[j] = (stepTime a (j * a.snaps), S (j * a.snaps)) := by
    simp only [hfr, List.getElem_map, List.getElem_range]
    unfold frameAt
    rw [if_neg hj0]
  rw [hfj] at w1 w2 w3
  have hsn : 1 ≤ a.snaps := hp.snaps
  have hk0 : 0 < j * a.snaps := Nat.mul_pos (Nat.pos_of_ne_zero hj0) hsn
  obtain ⟨S1, S2, S3⟩ := hS (j * a.snaps)
  have hc1 : a.c1 = ⟨P.c1⟩ := by
    have : a.c1.val = P.c1 := hp.c1
    rw [← this]
  rw [frameRow_full hfull (by decide) w1 S1, frameRow_full hfull (by decide) w2 S3, frameRow_full hfull (by decide) w3 S2,
    hE.spacing, hc1] at w4
  rw [hc1] at hE
  obtain ⟨b1, b2, -⟩ := hx (Rd R) ⟨id, id⟩ inferInstance 0 le_rfl (fun y => by change |y.val - y.val| ≤ _; simp) (j * a.snaps)
    hk0 t ht htT
  obtain ⟨b1, b1'⟩ := stored_id b1
  obtain ⟨b2, b2'⟩ := stored_id b2
  have hphi : Gen.get_phi A (x' (j * a.snaps)).omega a.dx = .ok (x' (j * a.snaps)).phi := by
    obtain ⟨q, hq⟩ := Nat.exists_eq_succ_of_ne_zero hk0.ne'
    rw [hq]
    exact gen_rk4_phi (x2 q)
  obtain ⟨w, k1, k2⟩ := HC u R A η v ε u0 η0 p2 v0 (hv.trans d2) (hε.trans d2) β _ _ E.props a.k0 a.dx hcast hp.spacing hA hE
    t (by rw [ht]; positivity) htT (x' (j * a.snaps)) (x1 _).1 (x1 _).2.1 hphi b1 b2 b1' b2' name (hnames _ hname) hev
  rw [w4] at k1
  rw [Except.ok.inj k1]
  exact k2

/-- **C139, run2.** The same for `run2` as in C135: `calculate_properties`, called at its end, writes one dataset per property
with one number per frame; the number of a recorded step `k ≥ 1` is, before it is rounded to be stored, within `C dx²` of the
physical quantity of the solution at the time `k step_size ≤ T`. -/
theorem C139_run2_file_properties (P : Params) (hnu : 0 ≤ P.nu) {L T B : ℝ} {r : ℕ} (hT : 0 ≤ T) (hL : 0 < L)
    (hr : 4 ≤ r) (hr' : 2 * P.N + 2 ≤ r) {nf wf pf : ℝ → ℕ → ℕ → ℝ → ℝ → ℝ} (H : HWSolution P L L T r B nf wf pf) :
    ∃ C, 0 ≤ C ∧ ∀ (m : ℕ) (b : Backend), 0 < m → Std b m m →
      ∃ δ M, 0 < δ ∧ ∀ (u : ℝ) (R : Rounded u) (A : Gen.Arith (Rd R)) (η θ v ε : ℝ), 0 ≤ u → 0 ≤ η → u ≤ θ → θ ≤ 1 / 4 →
        0 ≤ v → v ≤ δ → ε ≤ δ →
        ∀ (β : Type) (_ : Casts (Rd R) β) (_ : Inhabited β) (E : Env2 (Rd R) β) (a : Args2 (Rd R)) (σ : St (Rd R) β),
        (∀ x : Rd R, |(Casts.f64 (Casts.f32 x : β) : Rd R).val - x.val| ≤ v * |x.val|) →
        Accurate A b η m m a.dx → AccurateProps E.props a.k0 a.dx a.c1 ε M m →
        FloatPoses2 E A a σ P L (nf 0 0 0) (wf 0 0 0) (u + η) θ m →
        a.step_size.val ≤ δ → u + η ≤ δ * a.step_size.val → (∀ name ∈ a.properties, name ∈ propertyTable) →
        ∃ count, IsLeast {k : ℕ | a.end_time.val ≤ round4R R (stamp E a k)} count ∧ ∀ fuel, count < fuel →
          (run2 E a fuel σ).1 = .ok (some ()) ∧ ∃ f : H5 (Rd R) β, (run2 E a fuel σ).2.fs a.output_path = some f ∧
          ∀ name ∈ a.properties, ∃ vs : List (Rd R), f.dsets name = some (.flat (vs.map Casts.f32)) ∧
            vs.length = (floatRecorded E a count).length ∧
            ((name = "gamma_n_spectral" → Even m) →
              ∀ j (hj : j < vs.length) k, (floatRecorded E a count)[j]? = some k → k ≠ 0 →
              ∀ t, t = (k : ℝ) * a.step_size.val → t ≤ T →
                |vs[j].val - physical L L P.c1 (nf t) (wf t) (pf t) name| ≤ C * a.dx.val ^ 2) := by
  obtain ⟨K, hK, HK⟩ := float_core P hnu hT hL hr hr' H
  obtain ⟨C, hC, HC⟩ := stored_core P hT hL hr H hK
  refine ⟨C, hC, fun m b hm hb => ?_⟩
  obtain ⟨δ1, hδ1, HK⟩ := HK m b hm hb
  obtain ⟨δ2, M, hδ2, HC⟩ := HC m b hm hb
  refine ⟨min (min δ1 δ2) 1, M, by positivity, ?_⟩
  intro u R A η θ v ε u0 η0 hu hθ v0 hv hε β _ _ E a σ hcast hA hE hp hle hprec hnames
  have hdt := hp.step
  have l1 : a.step_size.val ≤ δ1 := hle.trans ((min_le_left _ _).trans (min_le_left _ _))
  have l2 : a.step_size.val ≤ 1 := hle.trans (min_le_right _ _)
  have d2 : min (min δ1 δ2) 1 ≤ δ2 := (min_le_left _ _).trans (min_le_right _ _)
  have p1 : u + η ≤ δ1 * a.step_size.val :=
    hprec.trans (mul_le_mul_of_nonneg_right ((min_le_left _ _).trans (min_le_left _ _)) hdt.le)
  have p2 : u + η ≤ δ2 :=
    (hprec.trans (mul_le_mul_of_nonneg_right d2 hdt.le)).trans (mul_le_of_le_one_right hδ2.le l2)
  obtain ⟨X, hX, hX'⟩ := hp.density
  obtain ⟨Y, hY, hY'⟩ := hp.omega
  obtain ⟨V, hV, hV'⟩ := hp.phi
  obtain ⟨-, Z', x, hZ', x0, x1, x2, hx⟩ := HK u R A η u0 η0 a.dx a.step_size hp.spacing hp.step hA l1 p1 X Y hX' hY'
  obtain ⟨count, S, hcount, hS, -, -, hrun⟩ := fresh2_float hp u0 hu hθ hA hX ⟨hX'.1, hX'.2.1⟩ hY ⟨hY'.1, hY'.2.1⟩ hZ' x0 x1 x2
  refine ⟨count, hcount, fun fuel hfuel => ?_⟩
  have hend : FloatOps.lt a.recording_start_time (timeAt E a (FloatOps.ofInt 0) count) = true := by
    rw [timeAt_stamp]
    refine decide_eq_true ?_
    change a.recording_start_time.val < stamp E a count
    have h0 : 0 ≤ stamp E a count := le_trans (by positivity) (stamp_ge hp u0 hu hθ count)
    have h1 : a.end_time.val ≤ _ := hcount.1
    have h2 := (round4R_bounds (R := R) u0 (hu.trans hθ) h0).2
    have h3 := hp.endpos
    have h4 := lt_of_mul_lt_mul_left (h3.trans_le (h1.trans h2)) (by linarith)
    linarith
  have hfull : a.downsample_factor.val = 1 := hp.full
  have hfr := frames2_float E a S count
  -- the fields of every frame
  have hfield : ∀ fr ∈ frames2 E a S count, ∀ k ∈ ["density", "phi", "omega"], ∃ W : Arr (Rd R),
      fr.2.get? k = some (.arr W) ∧ W.h = m ∧ W.w = m := by
    intro fr hmem k hk
    rw [hfr] at hmem
    obtain ⟨j, -, rfl⟩ := List.mem_map.1 hmem
    simp only [List.mem_cons, List.not_mem_nil, or_false] at hk
    simp only
    split
    · rcases hk with rfl | rfl | rfl
      · exact ⟨X, by rw [← hX]; rfl, hX'.1, hX'.2.1⟩
      · exact ⟨V, by rw [← hV]; rfl, hV'⟩
      · exact ⟨Y, by rw [← hY]; rfl, hY'.1, hY'.2.1⟩
    · obtain ⟨S1, S2, S3⟩ := hS j
      obtain ⟨q1, q2, q3⟩ := x1 j
      rcases hk with rfl | rfl | rfl
      · exact ⟨_, S1, q1⟩
      · exact ⟨_, S3, q3⟩
      · exact ⟨_, S2, q2⟩
  have hdef : FramesDefined E.toEnv a.toArgs m (frames2 E a S count) := by
    refine fun name hname => ⟨hnames _ hname, fun fr hmem n p o hn hp ho => ?_⟩
    obtain ⟨N, n1, n2⟩ := hfield fr hmem "density" (by simp)
    obtain ⟨Q, q1, q2⟩ := hfield fr hmem "phi" (by simp)
    obtain ⟨O, o1, o2⟩ := hfield fr hmem "omega" (by simp)
    rw [frameRow_full hfull (by decide) hn n1, frameRow_full hfull (by decide) hp q1, frameRow_full hfull (by decide) ho o1,
      hE.spacing]
    exact hE.returns _ _ _ n2 q2 o2 name (hnames _ hname)
  obtain ⟨g1, f, g2, g3⟩ := run2_fromFrames hrun hfuel hend hdef
  refine ⟨g1, f, g2, fun name hname => ?_⟩
  obtain ⟨vs, v1, v2⟩ := g3 name hname
  rw [hfr, List.forall₂_map_left_iff] at v2
  have hlen := v2.length_eq
  refine ⟨vs, v1, hlen.symm, fun hev j hj k hjk hk0 t ht htT => ?_⟩
  have hjl : j < (floatRecorded E a count).length := by rw [hlen]; exact hj
  have hkj : (floatRecorded E a count)[j] = k := by
    rw [List.getElem?_eq_getElem hjl] at hjk
    exact Option.some.inj hjk
  obtain ⟨n, p, o, w1, w2, w3, w4⟩ := forall₂_at v2 hjl hj
  rw [hkj] at w1 w2 w3
  simp only [if_neg hk0] at w1 w2 w3
  obtain ⟨S1, S2, S3⟩ := hS k
  have hc1 : a.c1 = ⟨P.c1⟩ := by rw [← hp.c1]
  rw [frameRow_full hfull (by decide) w1 S1, frameRow_full hfull (by decide) w2 S3, frameRow_full hfull (by decide) w3 S2,
    hE.spacing, hc1] at w4
  rw [hc1] at hE
  obtain ⟨b1, b2, -⟩ := hx (Rd R) ⟨id, id⟩ inferInstance 0 le_rfl (fun y => by change |y.val - y.val| ≤ _; simp) k
    (Nat.pos_of_ne_zero hk0) t ht htT
  obtain ⟨b1, b1'⟩ := stored_id b1
  obtain ⟨b2, b2'⟩ := stored_id b2
  have hphi : Gen.get_phi A (x k).omega a.dx = .ok (x k).phi := by
    obtain ⟨q, rfl⟩ := Nat.exists_eq_succ_of_ne_zero hk0
    exact gen_rk4_phi (x2 q)
  obtain ⟨w, k1, k2⟩ := HC u R A η v ε u0 η0 p2 v0 (hv.trans d2) (hε.trans d2) β _ _ E.props a.k0 a.dx hcast hp.spacing hA hE
    t (by rw [ht]; positivity) htT (x k) (x1 _).1 (x1 _).2.1 hphi b1 b2 b1' b2' name (hnames _ hname) hev
  rw [w4] at k1
  rw [Except.ok.inj k1]
  exact k2

/-! ### non-vacuity: the drift wave, stored with `q` bits, properties computed from the stored numbers in `p`-bit arithmetic -/

@[instance_reducible] noncomputable def rdBits {u : ℝ} (R : Rounded u) (q : ℕ) : Casts (Rd R) (Rd (Rounded.binary q)) :=
  ⟨fun x => ⟨nearest q x.val⟩, fun y => ⟨y.val⟩⟩

/-- the property functions in the arithmetic `A`, applied to the numbers read from the file -/
noncomputable def rdProps {u : ℝ} {R : Rounded u} (q : ℕ) (A : Gen.Arith (Rd R)) : PropEnv (Rd R) (Rd (Rounded.binary q)) where
  dx k0 n := ⟨2 * Real.pi / (rdNum k0).val / (rdNum n).val⟩
  value name dx c1 n p o := match n, p, o with
    | .arr n, .arr p, .arr o => Gen.propValue A (exactSpectra R) name dx (rdNum c1) (n.map fun y => ⟨y.val⟩) (p.map fun y => ⟨y.val⟩)
        (o.map fun y => ⟨y.val⟩)
    | _, _, _ => .error .typeError

noncomputable def rdEnvS {u : ℝ} {R : Rounded u} (q : ℕ) (A : Gen.Arith (Rd R)) : Env2 (Rd R) (Rd (Rounded.binary q)) where
  HW := Gen.hwOf A rdNum
  hasNaN _ := false
  allZero _ := false
  downsample v _ := .ok v
  attrNum := rdNum
  props := rdProps q A
  propertyFn := Gen.propertyFncs A (exactSpectra R)
  sum := fun l => ⟨R.add 0 (l.map Rd.val).sum⟩

theorem rdProps_accurate {m : ℕ} (hm : 0 < m) (M ε : ℝ) (hε : 0 < ε) : ∃ κ, 0 < κ ∧ ∀ (u : ℝ) (R : Rounded u) (A : Gen.Arith (Rd R))
    (η : ℝ) (q : ℕ), 0 ≤ u → 0 ≤ η → u + η ≤ κ → Accurate A numpyBackend η m m ⟨2 * Real.pi / m⟩ →
    @AccurateProps u R (Rd (Rounded.binary q)) (rdBits R q) _ (rdProps q A) ⟨1⟩ ⟨2 * Real.pi / m⟩ ⟨3⟩ ε M m := by
  have hdx : 2 * Real.pi / m ≠ 0 := by have := Real.pi_pos; positivity
  obtain ⟨C, hC, H⟩ := C138_property_rounding hm (b := numpyBackend) (.inl rfl) hdx 3 M
  refine ⟨min (1 / 28) (ε / (C + 1)), by positivity, fun u R A η q u0 η0 hκ hA => ?_⟩
  have h28 : 28 * (u + η) ≤ 1 := by linarith [hκ.trans (min_le_left _ _)]
  let _ := rdBits R q
  refine { spacing := ?_, returns := fun N P O hn hp ho name hname => ?_, value := fun N P O hn hp ho name hname => ?_ }
  · simp [rdProps, rdNum]
  · exact gen_propValue_ok hm (.inl rfl) hdx 3 u0 η0 h28 hA (exactSpectra_accurate R η0 hm _) hname hn hp ho
  · obtain ⟨v, e, v1, v2, v3⟩ := H u R A (exactSpectra R) η u0 η0 h28 hA (exactSpectra_accurate R η0 hm _) _ _ _ hn hp ho name hname
    refine ⟨v, e, v1, v2, v3.trans ?_⟩
    have := hκ.trans (min_le_right _ _)
    rw [le_div_iff₀ (by positivity)] at this
    nlinarith

/-- the growing particle flux of the wave, computed from the file of `run` -/
example : ∃ C, ∀ m : ℕ, 0 < m → ∃ dt : ℝ, 0 < dt ∧ ∃ (p q : ℕ) (A : Gen.Arith (Rd (Rounded.binary p)))
    (f : H5 (Rd (Rounded.binary p)) (Rd (Rounded.binary q))) (vs : List (Rd (Rounded.binary p))),
      (@run _ _ (rdBits _ q) _ _ _ _ (rdEnvS q A).toEnv { rdArgs (Rounded.binary p) m dt with properties := propertyTable }
        ⟨fun _ => none, []⟩).2.fs "run.h5" = some f ∧
      f.dsets "gamma_n" = some (.flat (vs.map fun v => ⟨nearest q v.val⟩)) ∧
      vs.length = floatSteps (rdArgs (Rounded.binary p) m dt) / 3 + 1 ∧
      ∀ j (hj : j < vs.length), j ≠ 0 → (j * 3 : ℕ) * dt ≤ 5 →
        |vs[j].val - 2 / 3 * amp ((j * 3 : ℕ) * dt) ^ 2| ≤ C * (2 * Real.pi / m) ^ 2 := by
  obtain ⟨C, -, H⟩ := C139_run_file_properties _ (by norm_num) (by norm_num) (by positivity) le_rfl (by norm_num)
    (drift_wave 5)
  refine ⟨C, fun m hm => ?_⟩
  obtain ⟨δ, M, hδ, H⟩ := H m numpyBackend hm (.inl rfl)
  obtain ⟨κ, hκ, Hκ⟩ := rdProps_accurate hm M δ hδ
  obtain ⟨p, A, η, η0, hp, hA⟩ := C103_arithmetic_exists (hw := HW.init numpyBackend 1 1 1 1 1) (h := m) (w := m) hm hm (.inl rfl)
    (2 * Real.pi / m) (min (δ * δ) κ) (by positivity)
  obtain ⟨q, hq⟩ := exists_pow_lt_of_lt_one hδ (by norm_num : (1 / 2 : ℝ) < 1)
  have hq' : (2 : ℝ) ^ (-(q : ℤ)) ≤ δ := by
    rw [zpow_neg, zpow_natCast, ← inv_pow]
    rw [one_div] at hq
    exact hq.le
  have u0 : (0 : ℝ) ≤ 2 ^ (-(p : ℤ)) := by positivity
  have hpose : FloatPoses (rdEnvS q A).toEnv A { rdArgs (Rounded.binary p) m δ with properties := [] } ⟨fun _ => none, []⟩
      ⟨0, 1, 3, 1 / 10, 1, 40 / 3, false⟩ (2 * Real.pi) (modeFam (5 / 3 * amp 0) (4 / 3 * amp 0) (4 * 0) 0 0)
      (modeFam (- amp 0) 0 (4 * 0) 0 0) (2 ^ (-(p : ℤ)) + η) m :=
    { rd_poses A m hm δ _ hδ (by positivity) with sim := rfl, attr := fun _ => rfl, nan := fun _ => rfl, fresh := .inl rfl }
  obtain ⟨-, f, f1, H⟩ := H _ (Rounded.binary p) A η (2 ^ (-(q : ℤ))) δ u0 η0 (by positivity) hq' le_rfl _ (rdBits _ q) inferInstance
    (rdEnvS q A).toEnv { rdArgs (Rounded.binary p) m δ with properties := propertyTable } ⟨fun _ => none, []⟩
    (fun x => nearest_err q x.val) hA (Hκ _ _ A η q u0 η0 (hp.trans (min_le_right _ _)) hA) hpose le_rfl (hp.trans (min_le_left _ _))
    (fun _ h => h)
  obtain ⟨vs, v1, v2, v3⟩ := H "gamma_n" (by change _ ∈ propertyTable; decide)
  refine ⟨δ, hδ, p, q, A, f, vs, f1, v1, v2, fun j hj hj0 hjT => ?_⟩
  have := v3 (fun h => absurd h (by decide)) j hj hj0 _ rfl hjT
  have this : |_ - physical (2 * Real.pi) (2 * Real.pi) 3 _ _ _ "gamma_n"| ≤ _ := this
  rw [wave_flux] at this
  exact this

/-- the growing particle flux of the wave, computed from the file of `run2` -/
example : ∃ C, ∀ m : ℕ, 0 < m → ∃ dt : ℝ, 0 < dt ∧ ∃ (p q : ℕ) (A : Gen.Arith (Rd (Rounded.binary p))) (count : ℕ),
    ∀ fuel, count < fuel →
    ∃ (f : H5 (Rd (Rounded.binary p)) (Rd (Rounded.binary q))) (vs : List (Rd (Rounded.binary p))),
      (@run2 _ _ (rdBits _ q) _ _ _ _ (rdEnvS q A) (rdArgsP (Rounded.binary p) m dt) fuel ⟨fun _ => none, []⟩).2.fs "run.h5" = some f ∧
      f.dsets "gamma_n" = some (.flat (vs.map fun v => ⟨nearest q v.val⟩)) ∧
      vs.length = (floatRecorded (rdEnvS q A) (rdArgsP (Rounded.binary p) m dt) count).length ∧
      ∀ j (hj : j < vs.length) k, (floatRecorded (rdEnvS q A) (rdArgsP (Rounded.binary p) m dt) count)[j]? = some k →
        k ≠ 0 → (k : ℝ) * dt ≤ 5 → |vs[j].val - 2 / 3 * amp (k * dt) ^ 2| ≤ C * (2 * Real.pi / m) ^ 2 := by
  obtain ⟨C, -, H⟩ := C139_run2_file_properties _ (by norm_num) (by norm_num) (by positivity) le_rfl (by norm_num)
    (zonal_wave 5)
  refine ⟨C, fun m hm => ?_⟩
  obtain ⟨δ, M, hδ, H⟩ := H m numpyBackend hm (.inl rfl)
  obtain ⟨κ, hκ, Hκ⟩ := rdProps_accurate hm M δ hδ
  obtain ⟨p, A, η, η0, hp, hA⟩ := C103_arithmetic_exists (hw := HW.init numpyBackend 1 1 1 1 1) (h := m) (w := m) hm hm (.inl rfl)
    (2 * Real.pi / m) (min (min (δ * δ) κ) (1 / 28)) (by positivity)
  obtain ⟨q, hq⟩ := exists_pow_lt_of_lt_one hδ (by norm_num : (1 / 2 : ℝ) < 1)
  have hq' : (2 : ℝ) ^ (-(q : ℤ)) ≤ δ := by
    rw [zpow_neg, zpow_natCast, ← inv_pow]
    rw [one_div] at hq
    exact hq.le
  have u0 : (0 : ℝ) ≤ 2 ^ (-(p : ℤ)) := by positivity
  have hs : 28 * ((2 : ℝ) ^ (-(p : ℤ)) + η) ≤ 1 := by linarith [hp.trans (min_le_right _ _)]
  have hd := hp.trans ((min_le_left _ _).trans (min_le_left _ _))
  have hk := hp.trans ((min_le_left _ _).trans (min_le_right _ _))
  have h0 := rd_posesP A m hm δ η hδ u0 η0 hs hA
  have hpose : FloatPoses2 (rdEnvS q A) A (rdArgsP (Rounded.binary p) m δ) ⟨fun _ => none, []⟩
      ⟨0, 1, 3, 1 / 10, 1, 40 / 3, true⟩ (2 * Real.pi) (modeFam (5 / 3 * amp 0) (4 / 3 * amp 0) (4 * 0) 0 0)
      (modeFam (- amp 0) 0 (4 * 0) 0 0) (2 ^ (-(p : ℤ)) + η) (1 / 4) m :=
    { h0 with sim := rfl, attr := fun _ => rfl, flag := fun _ => rfl, nan := fun _ => rfl, fresh := .inl rfl, sum := h0.sum,
              props := h0.props }
  obtain ⟨count, -, H⟩ := H _ (Rounded.binary p) A η (1 / 4) (2 ^ (-(q : ℤ))) δ u0 η0 (by linarith) le_rfl (by positivity) hq' le_rfl _
    (rdBits _ q) inferInstance (rdEnvS q A) (rdArgsP (Rounded.binary p) m δ) ⟨fun _ => none, []⟩
    (fun x => nearest_err q x.val) hA (Hκ _ _ A η q u0 η0 hk hA) hpose le_rfl hd (fun _ h => h)
  refine ⟨δ, hδ, p, q, A, count, fun fuel hf => ?_⟩
  obtain ⟨-, f, f1, H⟩ := H fuel hf
  obtain ⟨vs, v1, v2, v3⟩ := H "gamma_n" (by change _ ∈ propertyTable; decide)
  refine ⟨f, vs, f1, v1, v2, fun j hj k hk hk0 hkT => ?_⟩
  have := v3 (fun h => absurd h (by decide)) j hj k hk hk0 _ rfl hkT
  have this : |_ - physical (2 * Real.pi) (2 * Real.pi) 3 _ _ _ "gamma_n"| ≤ _ := this
  rw [wave_flux] at this
  exact this

end Verif.Props
