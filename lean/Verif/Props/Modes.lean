import Verif.Props.HWHistory
import Verif.Props.PDEConvergence
import Verif.Lemmas.NoBracket

/-!
# Property theorems C88: linear waves

`coef h w A.at' k m` is the Fourier coefficient of the array `A` (`Spec/Fourier.lean`), `modeMat`
the matrix of the linear equations for one mode (`Spec/Modes.lean`).
-/

set_option linter.unusedSectionVars false

namespace Verif.Props

open Arr NS Spec Matrix Complex

variable {h w : ℕ}

/-- what one step does to the amplitudes of a mode with matrix `M`: the exponential series of `dt M`, up to
the fourth (RK4) or first (Euler) power -/
noncomputable def amplify : Step → Matrix (Fin 2) (Fin 2) ℂ → Matrix (Fin 2) (Fin 2) ℂ
  | .rk4 dt, M => 1 + dt • M + (dt ^ 2 / 2) • M ^ 2 + (dt ^ 3 / 6) • M ^ 3 + (dt ^ 4 / 24) • M ^ 4
  | .euler dt, M => 1 + dt • M

/-- amplitudes of mode `(k, m)` of density and vorticity in a state -/
noncomputable def amps (h w : ℕ) (s : NS Val) (k m : ℕ) : Fin 2 → ℂ :=
  ![coef h w (arrOf s "density").at' k m, coef h w (arrOf s "omega").at' k m]

/-- the amplitudes after a list of steps -/
noncomputable def evolve (M : Matrix (Fin 2) (Fin 2) ℂ) (l : List Step) (v : Fin 2 → ℂ) : Fin 2 → ℂ :=
  l.foldl (fun v a => amplify a M *ᵥ v) v

/-- the array is a single wave of mode `(k, m)` (any amplitude and phase) on a constant background -/
def IsWave (h w k m : ℕ) (A : Arr ℝ) : Prop := ∃ (a : ℝ) (z : ℂ), ∀ i j, i < h → j < w →
  A.at' i j = a + (z * exp (2 * Real.pi * I * ((k : ℂ) * i / h + (m : ℂ) * j / w))).re

/-- density and vorticity are single waves of the same mode, or vary along x only, or vary along y only -/
def Simple (h w : ℕ) (s : NS Val) : Prop :=
  (∃ k m, IsWave h w k m (arrOf s "density") ∧ IsWave h w k m (arrOf s "omega")) ∨
  (∃ F G : ℕ → ℝ, ∀ i j, i < h → j < w → (arrOf s "density").at' i j = F j ∧ (arrOf s "omega").at' i j = G j) ∨
  (∃ F G : ℕ → ℝ, ∀ i j, i < h → j < w → (arrOf s "density").at' i j = F i ∧ (arrOf s "omega").at' i j = G i)

section fields
variable [NeZero h] [NeZero w]

theorem ampl_pow (P : Params) {k m : ℕ} (hk : k < h) (hm : m < w) (n : ℕ) (u : Pair h w) :
    ampl (k : ZMod h) (m : ZMod w) ((linU P ^ n) u)
      = (modeMat P h w k m ^ n) *ᵥ ampl (k : ZMod h) (m : ZMod w) u := by
  induction n with
  | zero => simp
  | succ n ih =>
    rw [pow_succ', Module.End.mul_apply, ampl_linU P hk hm, ih, mulVec_mulVec, ← pow_succ']

theorem ampl_step (P : Params) (dx0 : ℝ) (a : Step) {k m : ℕ} (hk : k < h) (hm : m < w) {s : Sta h w}
    (hs : s.2.2.1 = phiF P.dx s.2.1) {V : Submodule ℝ (Pair h w)} (hu : prj s ∈ V)
    (hV : ∀ u ∈ V, rhsU P u = linU P u ∧ linU P u ∈ V) :
    prj (stepS P dx0 a s) ∈ V ∧ ampl (k : ZMod h) (m : ZMod w) (prj (stepS P dx0 a s))
      = amplify a (modeMat P h w k m) *ᵥ ampl (k : ZMod h) (m : ZMod w) (prj s) := by
  cases a with
  | rk4 dt =>
    obtain ⟨e1, e2⟩ := rk4U_on V (fun u hu => (hV u hu).1) (fun u hu => (hV u hu).2) dt hu
    have e : prj (stepS P dx0 (.rk4 dt) s) = rk4U (linU P) dt (prj s) := (prj_rk4S P dx0 dt s hs).trans e1
    rw [e]
    refine ⟨e2, ?_⟩
    rw [rk4U_linear, map_sum]
    simp only [map_smul, ampl_pow P hk hm, Finset.sum_range_succ, Finset.range_zero, Finset.sum_empty, amplify,
      add_mulVec, smul_mulVec]
    norm_num [Nat.factorial]
  | euler dt =>
    have e : prj (stepS P dx0 (.euler dt) s) = dt • linU P (prj s) + prj s := by
      rw [← (hV _ hu).1]; exact prj_eulerS P dx0 dt s hs
    rw [e]
    refine ⟨V.add_mem (V.smul_mem _ (hV _ hu).2) hu, ?_⟩
    rw [map_add, map_smul, ampl_linU P hk hm]
    simp only [amplify, add_mulVec, smul_mulVec, one_mulVec]
    rw [add_comm]

theorem ampl_hist (P : Params) (dx0 : ℝ) {V : Submodule ℝ (Pair h w)}
    (hV : ∀ u ∈ V, rhsU P u = linU P u ∧ linU P u ∈ V) (l : List Step) {s : Sta h w}
    (hs : s.2.2.1 = phiF P.dx s.2.1) (hu : prj s ∈ V) :
    prj (histS P dx0 l s) ∈ V ∧ ∀ k m, k < h → m < w →
      ampl (k : ZMod h) (m : ZMod w) (prj (histS P dx0 l s))
        = evolve (modeMat P h w k m) l (ampl (k : ZMod h) (m : ZMod w) (prj s)) := by
  induction l generalizing s with
  | nil => exact ⟨hu, fun _ _ _ _ => rfl⟩
  | cons a l ih =>
    have h1 := fun (k m : ℕ) (hk : k < h) (hm : m < w) => ampl_step P dx0 a hk hm hs hu hV
    have h2 := ih (stepS_phi P dx0 a s) (h1 0 0 (NeZero.pos h) (NeZero.pos w)).1
    refine ⟨h2.1, fun k m hk hm => ?_⟩
    have h3 := h2.2 k m hk hm
    rw [(h1 k m hk hm).2] at h3
    exact h3

theorem amps_mk {test : Bool} {ks : List String} (hk : GoodKeys ks test) (t : Sta h w) (k m : ℕ) :
    amps h w (NS.mk ks (st t)) k m = ampl (k : ZMod h) (m : ZMod w) (prj t) := by
  unfold amps
  rw [arrOf_density hk, arrOf_omega hk, ampl_apply,
    spec_coef_of (g := t.1) fun i j hi hj => ofField_at' _ hi hj,
    spec_coef_of (g := t.2.1) fun i j hi hj => ofField_at' _ hi hj]
  rfl

theorem isWave_iff {k m : ℕ} {f : Fld h w} :
    IsWave h w k m (ofField f) ↔ Supp (waveModes (k : ZMod h) (m : ZMod w)) f := by
  have key : ∀ (a : ℝ) (z : ℂ) (i j : ℕ), oneWave (k : ZMod h) (m : ZMod w) a z i j
      = a + (z * exp (2 * Real.pi * I * ((k : ℂ) * i / h + (m : ℂ) * j / w))).re := by
    intro a z i j
    unfold oneWave wv
    rw [ec_exp, ec_exp, ← exp_add]
    congr 4; ring
  constructor
  · rintro ⟨a, z, H⟩
    have : f = oneWave (k : ZMod h) (m : ZMod w) a z := by
      funext i j
      have := H i.val j.val (ZMod.val_lt i) (ZMod.val_lt j)
      rw [← key, ofField_at' _ (ZMod.val_lt i) (ZMod.val_lt j)] at this
      simpa using this
    rw [this]
    exact supp_oneWave _ _ a z
  · intro H
    obtain ⟨a, z, rfl⟩ := oneWave_of_supp H
    exact ⟨a, z, fun i j hi hj => by rw [ofField_at' _ hi hj, key]⟩

theorem simple_mk {test : Bool} {ks : List String} (hk : GoodKeys ks test) (t : Sta h w) :
    Simple h w (NS.mk ks (st t)) ↔ (∃ k m : ℕ, prj t ∈ suppP (waveModes (k : ZMod h) (m : ZMod w))) ∨
      prj t ∈ suppP (onlyX h w) ∨ prj t ∈ suppP (onlyY h w) := by
  unfold Simple
  rw [arrOf_density hk, arrOf_omega hk]
  simp only [isWave_iff, mem_suppP, prj, supp_onlyX, supp_onlyY]
  refine or_congr Iff.rfl (or_congr ?_ ?_)
  · constructor
    · rintro ⟨F, G, H⟩
      have H' : ∀ (i : ZMod h) (j : ZMod w), t.1 i j = F j.val ∧ t.2.1 i j = G j.val := by
        intro i j
        have := H i.val j.val (ZMod.val_lt i) (ZMod.val_lt j)
        rw [ofField_at' _ (ZMod.val_lt i) (ZMod.val_lt j), ofField_at' _ (ZMod.val_lt i) (ZMod.val_lt j)] at this
        simpa using this
      exact ⟨fun i j => by rw [(H' i j).1, (H' 0 j).1], fun i j => by rw [(H' i j).2, (H' 0 j).2]⟩
    · rintro ⟨h1, h2⟩
      refine ⟨fun j => t.1 0 j, fun j => t.2.1 0 j, fun i j hi hj => ?_⟩
      rw [ofField_at' _ hi hj, ofField_at' _ hi hj]
      exact ⟨h1 _ _, h2 _ _⟩
  · constructor
    · rintro ⟨F, G, H⟩
      have H' : ∀ (i : ZMod h) (j : ZMod w), t.1 i j = F i.val ∧ t.2.1 i j = G i.val := by
        intro i j
        have := H i.val j.val (ZMod.val_lt i) (ZMod.val_lt j)
        rw [ofField_at' _ (ZMod.val_lt i) (ZMod.val_lt j), ofField_at' _ (ZMod.val_lt i) (ZMod.val_lt j)] at this
        simpa using this
      exact ⟨fun i j => by rw [(H' i j).1, (H' i 0).1], fun i j => by rw [(H' i j).2, (H' i 0).2]⟩
    · rintro ⟨h1, h2⟩
      refine ⟨fun i => t.1 i 0, fun i => t.2.1 i 0, fun i j hi hj => ?_⟩
      rw [ofField_at' _ hi hj, ofField_at' _ hi hj]
      exact ⟨h1 _ _, h2 _ _⟩

end fields

variable {P : Params} {hw : HW} {b : Backend} {dx0 k0 : ℝ} {test : Bool}

/-- **C88, linear runs.** Without brackets, every sequence of steps acts on each Fourier mode separately: the
amplitudes of density and vorticity are multiplied by the polynomial `amplify` of the matrix of that mode. -/
theorem C88_modes_evolve_separately (h0 : 0 < h) (w0 : 0 < w) (hb : Std b h w)
    (ehw : hw = HW.init b dx0 P.N P.c1 P.nu k0 P.pb P.kappa P.zonal test) (hpb : P.pb = 0) (s : NS Val)
    (hs : IsState test h w s) (hc : Consistent hw P.dx s) (l : List Step) (c : Calls) :
    ∃ s' c', history hw P.dx l s c = .ok (s', c') ∧ ∀ k m, k < h → m < w →
      amps h w s' k m = evolve (modeMat P h w k m) l (amps h w s k m) := by
  have : NeZero h := ⟨h0.ne'⟩
  have : NeZero w := ⟨w0.ne'⟩
  have hb' : hw.backend.Good h w := by rw [ehw]; exact hb.good
  have ep : parOf hw P.dx = P := by rw [ehw]; exact parOf_init ..
  have et : hw.TEST_CONSERVATION = test := by rw [ehw]; rfl
  obtain ⟨ks, t, hk, hn, rfl⟩ := hs.exists_mk
  rw [consistent_mk hw hb' P.dx hk] at hc
  refine ⟨_, _, history_eval hw P.dx hb' (et ▸ hk) l t c, fun k m h1 h2 => ?_⟩
  rw [amps_mk (goodKeys_hist l hk), amps_mk hk, ep]
  exact (ampl_hist P hw.dx (V := ⊤) (fun u _ => ⟨rhsU_of_pb P hpb u, trivial⟩) l hc trivial).2 k m h1 h2

/-- **C88, nonlinear waves.** A state whose density and vorticity are single waves of one mode on a constant
background, or depend on x only, or on y only, is not affected by the brackets, whatever their coefficient: it
keeps this form and its amplitudes follow the linear equations. -/
theorem C88_simple_states_are_linear (h0 : 0 < h) (w0 : 0 < w) (hb : Std b h w)
    (ehw : hw = HW.init b dx0 P.N P.c1 P.nu k0 P.pb P.kappa P.zonal test) (s : NS Val)
    (hs : IsState test h w s) (hc : Consistent hw P.dx s) (hS : Simple h w s) (l : List Step) (c : Calls) :
    ∃ s' c', history hw P.dx l s c = .ok (s', c') ∧ Simple h w s' ∧ ∀ k m, k < h → m < w →
      amps h w s' k m = evolve (modeMat P h w k m) l (amps h w s k m) := by
  have : NeZero h := ⟨h0.ne'⟩
  have : NeZero w := ⟨w0.ne'⟩
  have hb' : hw.backend.Good h w := by rw [ehw]; exact hb.good
  have ep : parOf hw P.dx = P := by rw [ehw]; exact parOf_init ..
  have et : hw.TEST_CONSERVATION = test := by rw [ehw]; rfl
  obtain ⟨ks, t, hk, hn, rfl⟩ := hs.exists_mk
  rw [consistent_mk hw hb' P.dx hk] at hc
  rw [simple_mk hk] at hS
  refine ⟨_, _, history_eval hw P.dx hb' (et ▸ hk) l t c, ?_⟩
  rw [simple_mk (goodKeys_hist l hk), ep]
  have main : ∀ Λ, NoBracket Λ → prj t ∈ suppP Λ → prj (histS P hw.dx l t) ∈ suppP Λ ∧
      ∀ k m, k < h → m < w → amps h w (NS.mk (histKeys l ks) (st (histS P hw.dx l t))) k m
        = evolve (modeMat P h w k m) l (amps h w (NS.mk ks (st t)) k m) := by
    intro Λ hΛ ht
    obtain ⟨e1, e2⟩ := ampl_hist P hw.dx (V := suppP Λ)
      (fun u hu => ⟨rhsU_noBracket P hΛ hu, linU_supp P hu⟩) l hc ht
    refine ⟨e1, fun k m h1 h2 => ?_⟩
    rw [amps_mk (goodKeys_hist l hk), amps_mk hk]
    exact e2 k m h1 h2
  rcases hS with ⟨k, m, hS⟩ | hS | hS
  · obtain ⟨e1, e2⟩ := main _ (noBracket_wave _ _) hS
    exact ⟨.inl ⟨k, m, e1⟩, e2⟩
  · obtain ⟨e1, e2⟩ := main _ noBracket_onlyX hS
    exact ⟨.inr (.inl e1), e2⟩
  · obtain ⟨e1, e2⟩ := main _ noBracket_onlyY hS
    exact ⟨.inr (.inr e1), e2⟩

/-- eigenvectors are multiplied by the polynomial of the eigenvalue -/
theorem amplify_eigen (a : Step) {M : Matrix (Fin 2) (Fin 2) ℂ} {v : Fin 2 → ℂ} {g : ℂ} (hv : M *ᵥ v = g • v) :
    amplify a M *ᵥ v = (match a with
      | .rk4 dt => 1 + dt * g + (dt * g) ^ 2 / 2 + (dt * g) ^ 3 / 6 + (dt * g) ^ 4 / 24
      | .euler dt => 1 + dt * g) • v := by
  have h2 : M ^ 2 *ᵥ v = (g ^ 2) • v := by
    rw [pow_two, ← mulVec_mulVec, hv, mulVec_smul, hv, smul_smul, ← pow_two]
  have h3 : M ^ 3 *ᵥ v = (g ^ 3) • v := by
    rw [pow_succ, ← mulVec_mulVec, hv, mulVec_smul, h2, smul_smul]; congr 1; ring
  have h4 : M ^ 4 *ᵥ v = (g ^ 4) • v := by
    rw [pow_succ, ← mulVec_mulVec, hv, mulVec_smul, h3, smul_smul]; congr 1; ring
  cases a with
  | rk4 dt =>
    simp only [amplify, add_mulVec, smul_mulVec, one_mulVec, hv, h2, h3, h4]
    ext i
    simp only [Pi.add_apply, Pi.smul_apply, smul_eq_mul, Complex.real_smul]
    push_cast
    ring
  | euler dt =>
    simp only [amplify, add_mulVec, smul_mulVec, one_mulVec, hv]
    ext i
    simp only [Pi.add_apply, Pi.smul_apply, smul_eq_mul, Complex.real_smul]
    ring

/-- **C88, growth rates.** An eigenmode of the linear equations with (complex) growth rate `g` is multiplied in
`n` RK4 steps by the `n`-th power of the Taylor polynomial of `exp (dt g)`: the rate measured in a linear run,
or from a single wave in a nonlinear run, is the eigenvalue up to the known error of that polynomial. -/
theorem C88_growth_rate {M : Matrix (Fin 2) (Fin 2) ℂ} {v : Fin 2 → ℂ} {g : ℂ} (hv : M *ᵥ v = g • v) (dt : ℝ)
    (n : ℕ) : evolve M (List.replicate n (.rk4 dt)) v
      = ((1 + dt * g + (dt * g) ^ 2 / 2 + (dt * g) ^ 3 / 6 + (dt * g) ^ 4 / 24) ^ n) • v := by
  have e := amplify_eigen (.rk4 dt) hv
  simp only at e
  set q : ℂ := 1 + dt * g + (dt * g) ^ 2 / 2 + (dt * g) ^ 3 / 6 + (dt * g) ^ 4 / 24
  have key : ∀ (n : ℕ) (y : ℂ), evolve M (List.replicate n (.rk4 dt)) (y • v) = (y * q ^ n) • v := by
    intro n
    induction n with
    | zero => intro y; simp [evolve]
    | succ n ih =>
      intro y
      have : evolve M (List.replicate (n + 1) (.rk4 dt)) (y • v)
          = evolve M (List.replicate n (.rk4 dt)) (amplify (.rk4 dt) M *ᵥ (y • v)) := rfl
      rw [this, mulVec_smul, e, smul_smul, ih]
      congr 1; ring
  have := key n 1
  rwa [one_smul, one_mul] at this

/-! ### non-vacuity -/

/-- a wave of mode (1, 2) on a 4 × 6 grid with a consistent potential, and brackets with coefficient 7 -/
example : ∃ s : NS Val, IsState true 4 6 s ∧ Simple 4 6 s ∧
    Consistent (HW.init numpyBackend 1 3 2 (1 / 10) 1 7 5 false true) 1 s ∧
    ((arrOf s "density").at' 0 0 = 3 ∧ (arrOf s "density").at' 1 0 ≠ (arrOf s "density").at' 0 0) := by
  set t : Sta 4 6 := (oneWave 1 2 2 1, oneWave 1 2 0 I, phiF 1 (oneWave 1 2 0 I), 0, 0, 0) with ht
  set ks : List String := ["density", "omega", "phi", "age", "dE", "dU"]
  have hk : GoodKeys ks true := by
    constructor <;> simp [ks, gradKeys]
  have hn : ks.Nodup := by decide
  refine ⟨NS.mk ks (st t), isState_mk hk hn t, ?_, ?_, ?_⟩
  · rw [simple_mk hk]
    refine .inl ⟨1, 2, mem_suppP.2 ⟨?_, ?_⟩⟩
    · exact_mod_cast supp_oneWave (h := 4) (w := 6) 1 2 2 1
    · exact_mod_cast supp_oneWave (h := 4) (w := 6) 1 2 0 I
  · rw [consistent_mk (h := 4) (w := 6) _ (Std.good (.inl rfl)) 1 hk]
  · rw [arrOf_density hk, ofField_at' _ (by decide) (by decide), ofField_at' _ (by decide) (by decide)]
    have e0 : t.1 (0 : ℕ) (0 : ℕ) = 3 := by
      simp only [ht, oneWave, wv]; simp; norm_num
    refine ⟨e0, ?_⟩
    rw [e0]
    have e1 : t.1 (1 : ℕ) (0 : ℕ) = 2 := by
      simp only [ht, oneWave, wv]
      have := ec_exp (n := 4) 1 1
      have e : 2 * (Real.pi : ℂ) * I * (((1 : ℕ) : ℂ) * ((1 : ℕ) : ℂ) / ((4 : ℕ) : ℂ)) = Real.pi / 2 * I := by
        push_cast; ring
      rw [e, exp_pi_div_two_mul_I] at this
      simp only [Nat.cast_one, mul_one] at this
      simp [this]
    rw [e1]; norm_num

/-- an eigenmode with a nonzero growth rate -/
example : modeMat ⟨1, 1, 0, 1, 0, 0, false⟩ 4 6 2 0 *ᵥ ![1, 0] = (-4 : ℂ) • ![1, 0] := by
  have e : hypSym ⟨1, 1, 0, 1, 0, 0, false⟩ 4 6 2 0 = -4 := by
    unfold hypSym lapSym
    have : Real.pi * (2 : ℕ) / (4 : ℕ) = Real.pi / 2 := by push_cast; ring
    rw [this, Real.sin_pi_div_two]
    norm_num
  unfold modeMat
  rw [e]
  ext i
  fin_cases i <;> simp [mulVec, dotProduct, couSym]

end Verif.Props
