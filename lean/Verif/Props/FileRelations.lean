import Verif.Props.Run2Props
import Verif.Props.Measured

/-!
# C146: inequalities between the properties stored for one frame
-/

set_option linter.unusedSectionVars false

namespace Verif.Props

open Arr NS Spec H5IO Run Run2 RunProperties Properties

/-- What the named properties of one state on an `m × m` grid must satisfy, whatever the fields are: energies and enstrophies are not negative, and
neither is the dissipation `gamma_c` if `c1` is not; the energy computed with differences lies between the thermal energy and
the sum of thermal and kinetic energy; no flux exceeds the energy or twice the geometric mean of thermal and kinetic energy. -/
structure Related (m : ℕ) (c1 : ℝ) (v : String → ℝ) : Prop where
  thermal : 0 ≤ v "thermal_energy"
  kinetic : 0 ≤ v "kinetic_energy"
  enstrophy : 0 ≤ v "enstrophy"
  enstrophy_phi : 0 ≤ v "enstrophy_phi"
  gamma_c : 0 ≤ c1 → 0 ≤ v "gamma_c"
  energy_ge : v "thermal_energy" ≤ v "energy"
  energy_le : v "energy" ≤ v "thermal_energy" + v "kinetic_energy"
  flux_energy : |v "gamma_n"| ≤ v "energy"
  flux : v "gamma_n" ^ 2 ≤ 4 * v "thermal_energy" * v "kinetic_energy"
  flux_spectral : Even m → v "gamma_n_spectral" ^ 2 ≤ 4 * v "thermal_energy" * v "kinetic_energy"

section fields
variable {m : ℕ} [NeZero m]

theorem avg_nonneg {u : Fld m m} (h : ∀ i j, 0 ≤ u i j) : 0 ≤ avg u := div_nonneg (S_nonneg h) hw_pos.le

/-- Cauchy–Schwarz -/
theorem avg_mul_sq (f g : Fld m m) : (avg fun i j => f i j * g i j) ^ 2 ≤ (avg fun i j => f i j ^ 2) * avg fun i j => g i j ^ 2 := by
  have key : (S fun i j => f i j * g i j) ^ 2 ≤ (S fun i j => f i j ^ 2) * S fun i j => g i j ^ 2 := by
    have := Finset.sum_mul_sq_le_sq_mul_sq (Finset.univ : Finset (ZMod m × ZMod m)) (fun z => f z.1 z.2) fun z => g z.1 z.2
    unfold S
    simp only [Fintype.sum_prod_type] at this
    exact this
  unfold avg
  rw [div_pow, div_mul_div_comm, ← sq ((m : ℝ) * m)]
  exact div_le_div_of_nonneg_right key (sq_nonneg _)

/-- the spectral y-derivative has at most the kinetic energy -/
theorem dy_sq_le (dx : ℝ) (p g : Fld m m)
    (hg : ∀ k l, D (cx g) k l = if 2 * k.val = m then 0 else Complex.I * ((2 * Real.pi * kap k / dx : ℝ) : ℂ) * D (cx p) k l) :
    S (fun i j => g i j ^ 2) ≤ S (fun k l => -lamb k l / dx ^ 2 * ‖D (cx p) k l‖ ^ 2) / ((m : ℝ) * (m : ℝ)) := by
  rw [le_div_iff₀ hw_pos, mul_comm, ← parseval_sq]
  refine S_le fun k l => ?_
  have e : -lamb k l / dx ^ 2 * ‖D (cx p) k l‖ ^ 2
      = ((2 * Real.pi * kap k / dx) ^ 2 + (2 * Real.pi * kap l / dx) ^ 2) * ‖D (cx p) k l‖ ^ 2 := by
    unfold lamb
    ring
  rw [hg, e]
  split_ifs
  · rw [norm_zero, zero_pow two_ne_zero]
    positivity
  · rw [norm_mul, norm_mul, Complex.norm_I, one_mul, Complex.norm_real, mul_pow, Real.norm_eq_abs, sq_abs]
    have : 0 ≤ (2 * Real.pi * kap l / dx) ^ 2 * ‖D (cx p) k l‖ ^ 2 := by positivity
    linarith

theorem gradY_sq_le (dx : ℝ) (p : Fld m m) :
    S (fun i j => gradY dx p i j ^ 2) ≤ S (fun i j => gradX dx p i j ^ 2 + gradY dx p i j ^ 2) :=
  S_le fun i j => by nlinarith [sq_nonneg (gradX dx p i j)]

theorem related_fields (dx c1 : ℝ) (n p o : Fld m m) (v : String → ℝ)
    (hv : ∀ name ∈ propertyTable, propValue name dx c1 (ofField n) (ofField p) (ofField o) = .ok (v name)) : Related m c1 v := by
  have val : ∀ name ∈ propertyTable, ∀ x, propValue name dx c1 (ofField n) (ofField p) (ofField o) = .ok x → v name = x :=
    fun name h x hx => Except.ok.inj ((hv name h).symm.trans hx)
  have e1 := val "gamma_n" (by decide) _ (by
    unfold propValue
    simp only [if_true]
    exact gamma_n_ofField n p dx)
  have e2 := val "gamma_n_spectral" (by decide) _ (by
    unfold propValue
    simp only [String.reduceEq, if_false, if_true]
    exact gamma_n_spectral_ofField n p dx)
  have e3 := val "gamma_c" (by decide) _ (by
    unfold propValue
    simp only [String.reduceEq, if_false, if_true]
    exact gamma_c_ofField n p c1 dx)
  have e4 := val "energy" (by decide) _ (by
    unfold propValue
    simp only [String.reduceEq, if_false, if_true]
    exact energy_ofField n p dx)
  have e5 := val "thermal_energy" (by decide) _ (by
    unfold propValue
    simp only [String.reduceEq, if_false, if_true]
    exact energy_N_ofField n)
  have e6 := val "kinetic_energy" (by decide) _ (by
    unfold propValue
    simp only [String.reduceEq, if_false, if_true]
    exact energy_V_ofField p dx)
  have e7 := val "enstrophy" (by decide) _ (by
    unfold propValue
    simp only [String.reduceEq, if_false, if_true]
    exact enstrophy_ofField n o dx)
  have e8 := val "enstrophy_phi" (by decide) _ (by
    unfold propValue
    simp only [String.reduceEq, if_false, if_true]
    exact enstrophy_phi_ofField n p dx)
  clear val hv
  have hm : (0 : ℝ) < (m : ℝ) * m := hw_pos
  set N := avg fun i j => n i j ^ 2 with hN
  have hN0 : 0 ≤ N := avg_nonneg fun i j => sq_nonneg _
  set K := avg (fun k l => -lamb k l / dx ^ 2 * ‖D (cx p) k l‖ ^ 2) / ((m : ℝ) * m) with hK
  set G := avg (fun i j => gradX dx p i j ^ 2 + gradY dx p i j ^ 2) with hG
  have hG0 : 0 ≤ G := avg_nonneg fun i j => by positivity
  have hGK : G ≤ K := div_le_div_of_nonneg_right (grad_sq_le dx p) hm.le
  have hY : (avg fun i j => gradY dx p i j ^ 2) ≤ G := div_le_div_of_nonneg_right (gradY_sq_le dx p) hm.le
  have hY0 : 0 ≤ avg fun i j => gradY dx p i j ^ 2 := avg_nonneg fun i j => sq_nonneg _
  have eE : avg (fun i j => n i j ^ 2 + (gradX dx p i j ^ 2 + gradY dx p i j ^ 2)) = N + G := by
    rw [hN, hG]
    unfold avg
    rw [S_add, add_div]
  rw [eE] at e4
  have cs : gamN dx n p ^ 2 ≤ N * avg fun i j => gradY dx p i j ^ 2 := by
    unfold gamN
    rw [neg_sq]
    exact avg_mul_sq _ _
  have cs' : gamN dx n p ^ 2 ≤ N * G := cs.trans (mul_le_mul_of_nonneg_left hY hN0)
  refine ⟨?_, ?_, ?_, ?_, fun h => ?_, ?_, ?_, ?_, ?_, fun h => ?_⟩
  · rw [e5]; positivity
  · rw [e6]; linarith
  · rw [e7]; exact div_nonneg (avg_nonneg fun i j => sq_nonneg _) (by norm_num)
  · rw [e8]; exact div_nonneg (avg_nonneg fun i j => sq_nonneg _) (by norm_num)
  · rw [e3]; exact mul_nonneg h (avg_nonneg fun i j => sq_nonneg _)
  · rw [e4, e5]; linarith
  · rw [e4, e5, e6]; linarith
  · rw [e1, e4]
    refine abs_le_of_sq_le_sq (cs'.trans ?_) (by linarith)
    nlinarith [sq_nonneg (N - G)]
  · rw [e1, e5, e6]
    have := cs'.trans (mul_le_mul_of_nonneg_left hGK hN0)
    linarith
  · obtain ⟨q, hq⟩ := h
    obtain ⟨g, hg⟩ := exists_dy p dx
    rw [gamma_n_spectral_even n p g dx q (by omega) hg] at e2
    rw [e2, e5, e6, neg_sq]
    have h1 := avg_mul_sq n g
    have h2 : (avg fun i j => g i j ^ 2) ≤ K := div_le_div_of_nonneg_right (dy_sq_le dx p g hg) hm.le
    have := h1.trans (mul_le_mul_of_nonneg_left h2 hN0)
    linarith

end fields

/-- the inequalities for all square arrays -/
theorem related_arrays {m : ℕ} (hm : 0 < m) (dx c1 : ℝ) {n p o : Arr ℝ} (hn : n.h = m ∧ n.w = m) (hp : p.h = m ∧ p.w = m)
    (ho : o.h = m ∧ o.w = m) : ∃ v : String → ℝ, (∀ name ∈ propertyTable, propValue name dx c1 n p o = .ok (v name)) ∧ Related m c1 v := by
  have : NeZero m := ⟨hm.ne'⟩
  have h : ∀ name, ∃ x, name ∈ propertyTable → propValue name dx c1 n p o = .ok x := fun name => by
    by_cases h : name ∈ propertyTable
    · obtain ⟨x, hx⟩ := propValue_ok h dx c1 hm hn hp ho
      exact ⟨x, fun _ => hx⟩
    · exact ⟨0, fun h' => absurd h' h⟩
  choose v hv using h
  refine ⟨v, hv, ?_⟩
  rw [← ofField_toFld hn.1 hn.2, ← ofField_toFld hp.1 hp.2, ← ofField_toFld ho.1 ho.2] at hv
  exact related_fields dx c1 _ _ _ v hv

section files
variable {β : Type} [Casts ℝ β] [Inhabited β] [FloatOps ℝ]
variable {E : Env2 ℝ β} {a : Args2 ℝ} {σ : St ℝ β} {hw : Solver ℝ} {ns m fuel : ℕ} {S : ℕ → NS (Cell ℝ)}

/-- **C146, during the run.** Every call of `run2` that creates a file and returns (also one stopped by a NaN, and whatever the
simulation computes): the datasets `fullres_<name>` have equally many entries, and the entries of one frame are the
(rounded) values of quantities that satisfy all the inequalities. -/
theorem C146_recorded (h : FreshRun2 E a σ hw ns m S) (hE : E.propertyFn = propertyFncs)
    (hp : ∀ name ∈ a.properties, name ∈ propertyTable) (hg : 0 < a.grid_pts) (hfuel : m < fuel) :
    ∃ f, (run2 E a fuel σ).2.fs a.output_path = some f ∧ ∃ rows : String → List (Cell β), ∃ count,
      (∀ name ∈ a.properties, f.dsets ("fullres_" ++ name) = some (.rows .one (rows name)) ∧ (rows name).length = count) ∧
      ∀ j < count, ∃ v : String → ℝ, Related a.grid_pts a.c1 v ∧ ∀ name ∈ a.properties, (rows name)[j]? = some (.num (Casts.f32 (v name))) := by
  obtain ⟨f, h1, -, -, -, -, -, h4, -⟩ := run2_result h hfuel
  refine ⟨f, h1, ?_⟩
  have shaped : ∀ fr ∈ frames2 E a S m, Shaped a.grid_pts fr.2 := by
    intro fr hfr
    unfold frames2 stepFrames2 at hfr
    rcases List.mem_append.mp hfr with hfr | hfr
    · split_ifs at hfr
      · rw [List.mem_singleton.mp hfr]
        exact h.init
      · simp at hfr
    · obtain ⟨k, hk, rfl⟩ := List.mem_map.mp hfr
      have := List.mem_range'_1.mp (List.mem_filter.mp hk).1
      exact h.shaped k this.1 (by omega)
  have shaped' : ∀ fr ∈ written2 a (timeAt E a (FloatOps.ofInt 0) m) (frames2 E a S m), Shaped a.grid_pts fr.2 := by
    intro fr hfr
    unfold written2 at hfr
    split_ifs at hfr
    · exact shaped fr hfr
    · exact shaped fr (List.mem_of_mem_take hfr)
  generalize written2 a (timeAt E a (FloatOps.ofInt 0) m) (frames2 E a S m) = frs at h4 shaped'
  have H : ∀ name, ∃ rows, name ∈ a.properties → f.dsets ("fullres_" ++ name) = some (.rows .one rows) ∧
      List.Forall₂ (fun fr row => ∃ x, IsPropValue E a name fr.2 x ∧ row = .num (Casts.f32 x)) frs rows := by
    intro name
    by_cases hn : name ∈ a.properties
    · obtain ⟨rows, r1, r2⟩ := h4 name hn fun hc => fullres_not_propertyName name (hp _ hc)
      exact ⟨rows, fun _ => ⟨r1, r2⟩⟩
    · exact ⟨[], fun hc => absurd hc hn⟩
  choose rows hrows using H
  refine ⟨rows, frs.length, fun name hn => ⟨(hrows name hn).1, (hrows name hn).2.length_eq.symm⟩, fun j hj => ?_⟩
  have sh := shaped' _ (List.getElem_mem hj)
  obtain ⟨n, n1, n2⟩ := sh.fields "density" (by decide)
  obtain ⟨p, p1, p2⟩ := sh.fields "phi" (by decide)
  obtain ⟨o, o1, o2⟩ := sh.fields "omega" (by decide)
  obtain ⟨v, v1, v2⟩ := related_arrays hg a.dx a.c1 n2 p2 o2
  refine ⟨v, v2, fun name hn => ?_⟩
  have R := (hrows name hn).2
  have hj' : j < (rows name).length := R.length_eq ▸ hj
  obtain ⟨x, ⟨F, n', p', o', w1, w2, w3, w4, w5⟩, w6⟩ := List.forall₂_iff_get.mp R |>.2 j hj hj'
  rw [List.get_eq_getElem] at w2 w3 w4 w6
  rw [n1] at w2
  rw [p1] at w3
  rw [o1] at w4
  cases w2
  cases w3
  cases w4
  rw [hE, propertyFncs_eq (hp _ hn)] at w1
  cases w1
  have : x = v name := Except.ok.inj (w5.symm.trans (v1 name (hp _ hn)))
  rw [List.getElem?_eq_getElem hj', w6, this]

omit [FloatOps ℝ] in
/-- **C146, after the run.** `calculate_properties` on every file with square fields: the entries it computes for one frame are the
(rounded) values of quantities that satisfy all the inequalities. -/
theorem C146_computed (path : String) (f : H5 ℝ β) (hσ : σ.fs path = some f) (k0 x_save c1 : Attr ℝ)
    (n p o : List (Arr β)) (m : ℕ) (hm : 0 < m) (hsq : ∀ A, A ∈ n ∨ A ∈ p ∨ A ∈ o → A.h = m ∧ A.w = m)
    (hf : RunFile f k0 x_save c1 (n.map .arr) (p.map .arr) (o.map .arr)) (names : List String)
    (hnames : ∀ name ∈ names, name ∈ propertyTable) (b : ℕ) (hb : 1 ≤ b) :
    ∃ σ' f', calculate_properties hwProps path b names true σ = (.ok (), σ') ∧ σ'.fs path = some f' ∧
      ∀ j < n.length, ∃ v : String → ℝ, Related m (attrReal c1) v ∧
        ∀ name ∈ names, ∃ vs : List β, f'.dsets name = some (.flat vs) ∧ vs.length = n.length ∧ vs[j]? = some (Casts.f32 (v name)) := by
  have hn' : "density" ∉ names ∧ "phi" ∉ names ∧ "omega" ∉ names := by
    refine ⟨fun h => ?_, fun h => ?_, fun h => ?_⟩ <;>
    · have := hnames _ h
      revert this
      decide
  obtain ⟨σ', f', e1, e2, e3⟩ := C56_square_files path f hσ k0 x_save c1 n p o m hm hsq hf names hn' true b hb
  refine ⟨σ', f', e1, e2, fun j hj => ?_⟩
  have hp := hf.phi_length
  have ho := hf.omega_length
  simp only [List.length_map] at hp ho
  have jp : j < p.length := by omega
  have jo : j < o.length := by omega
  obtain ⟨v, v1, v2⟩ := related_arrays hm (2 * Real.pi / attrReal k0 / attrReal x_save) (attrReal c1)
    (n := n[j].map Casts.f64) (p := p[j].map Casts.f64) (o := o[j].map Casts.f64)
    (hsq _ (.inl (List.getElem_mem hj))) (hsq _ (.inr (.inl (List.getElem_mem jp)))) (hsq _ (.inr (.inr (List.getElem_mem jo))))
  refine ⟨v, v2, fun name hn => ?_⟩
  obtain ⟨vs, q1, q2, q3⟩ := e3 name hn (hnames _ hn) (.inl rfl)
  have jv : j < vs.length := by omega
  have := q3 j _ _ _ _ (List.getElem?_eq_getElem hj) (List.getElem?_eq_getElem jp) (List.getElem?_eq_getElem jo)
    (List.getElem?_eq_getElem jv)
  refine ⟨_, q1, by simpa using q2, ?_⟩
  rw [List.getElem?_map, List.getElem?_eq_getElem jv, Except.ok.inj (this.symm.trans (v1 name (hnames _ hn)))]
  rfl

end files

attribute [local instance] exactOps

/-- the drift wave: in every frame of the file `|gamma_n| ≤ energy` -/
example : ∃ count, ∀ fuel, count < fuel → ∃ f, (run2 propsEnv (waveArgs2 8 (1 / 10)) fuel ⟨fun _ => none, []⟩).2.fs "run.h5" = some f ∧
    ∃ rows : String → List (Cell ℝ), ∃ count', ∀ name ∈ propertyTable, f.dsets ("fullres_" ++ name) = some (.rows .one (rows name)) ∧
      (rows name).length = count' ∧ ∀ j < count', ∃ v : String → ℝ, |v "gamma_n"| ≤ v "energy" ∧
        (rows "gamma_n")[j]? = some (.num (Casts.f32 (v "gamma_n"))) ∧ (rows "energy")[j]? = some (.num (Casts.f32 (v "energy"))) := by
  obtain ⟨A, B, C, T, -, -, -, -, hT⟩ := fresh2_physics (waveArgs2_good 8 (by decide) (1 / 10) (by norm_num))
  obtain ⟨m, -, h⟩ := hT (waveArgs2 8 (1 / 10)).end_time
  refine ⟨m, fun fuel hfuel => ?_⟩
  obtain ⟨f, h1, rows, count, h2, h3⟩ := C146_recorded h rfl (fun _ h => h) (by decide : 0 < 8) hfuel
  refine ⟨f, h1, rows, count, fun name hn => ⟨(h2 name hn).1, (h2 name hn).2, fun j hj => ?_⟩⟩
  obtain ⟨v, v1, v2⟩ := h3 j hj
  exact ⟨v, v1.flux_energy, v2 "gamma_n" (by decide : "gamma_n" ∈ propertyTable), v2 "energy" (by decide : "energy" ∈ propertyTable)⟩

example := C146_computed "run.h5" propsFile (σ := ⟨fun _ => some propsFile, []⟩) rfl _ _ _ [_] [_] [_] 8 (by decide)
  (by intro A hA; simp only [List.mem_singleton] at hA; rcases hA with rfl | rfl | rfl <;> exact ⟨rfl, rfl⟩)
  propsFile_run ["energy", "gamma_n"] (by decide) 2 (by decide)

end Verif.Props
