import Verif.Lemmas.MolStable
import Verif.Lemmas.Truncation
import Mathlib.Analysis.SpecialFunctions.ExpDeriv

/-!
# Convergence of the semi-discrete equations
-/

set_option linter.unusedSectionVars false

namespace Verif

open Spec Arr Set

variable {h w : ℕ} [NeZero h] [NeZero w]

/-- Grönwall's inequality -/
theorem gronwall {f f' : ℝ → ℝ} {K c T : ℝ} (hK : 0 ≤ K) (hc : 0 ≤ c)
    (hd : ∀ t ∈ Icc 0 T, HasDerivWithinAt f (f' t) (Icc 0 T) t) (hb : ∀ t ∈ Icc 0 T, f' t ≤ K * f t + c) :
    ∀ t ∈ Icc 0 T, f t ≤ (f 0 + c * t) * Real.exp (K * t) := by
  intro t ht
  have he : ∀ x, HasDerivAt (fun x => Real.exp (-(K * x))) (Real.exp (-(K * x)) * -(K * 1)) x := fun x =>
    (((hasDerivAt_id x).const_mul K).neg).exp
  have key := image_le_of_deriv_right_le_deriv_boundary (f := fun t => f t * Real.exp (-(K * t)))
    (f' := fun t => f' t * Real.exp (-(K * t)) + f t * (Real.exp (-(K * t)) * -(K * 1))) (a := 0) (b := T)
    (B := fun t => f 0 + c * t) (B' := fun _ => c)
    (fun x hx => ((hd x hx).mul (he x).hasDerivWithinAt).continuousWithinAt)
    (fun x hx => by
      have h1 := (hd x ⟨hx.1, hx.2.le⟩).mul (he x).hasDerivWithinAt
      have h2 := h1.mono fun y (hy : y ∈ Icc x T) => (⟨hx.1.trans hy.1, hy.2⟩ : y ∈ Icc 0 T)
      exact h2.mono_of_mem_nhdsWithin (Icc_mem_nhdsGE hx.2))
    (by simp)
    (by fun_prop)
    (fun x _ => by
      have := ((hasDerivAt_id x).const_mul c).const_add (f 0)
      exact (this.congr_deriv (mul_one c)).hasDerivWithinAt)
    (fun x hx => by
      have h1 := hb x ⟨hx.1, hx.2.le⟩
      have h2 := Real.exp_pos (-(K * x))
      have h3 : Real.exp (-(K * x)) ≤ 1 := by
        rw [Real.exp_le_one_iff]; nlinarith [hx.1]
      have h4 : (f' x - K * f x) * Real.exp (-(K * x)) ≤ c * Real.exp (-(K * x)) :=
        mul_le_mul_of_nonneg_right (by linarith) h2.le
      nlinarith) ht
  beta_reduce at key
  have h2 := Real.exp_pos (K * t)
  have h3 : Real.exp (-(K * t)) * Real.exp (K * t) = 1 := by rw [← Real.exp_add]; simp
  calc f t = f t * Real.exp (-(K * t)) * Real.exp (K * t) := by rw [mul_assoc, h3, mul_one]
    _ ≤ _ := mul_le_mul_of_nonneg_right key h2.le

/-! ### samples of smooth functions -/

theorem samp_diffY {r : ℕ} {D : ℕ → ℕ → ℝ → ℝ → ℝ} {B dx : ℝ} (hD : Partials r D B) (hr : 1 ≤ r)
    (hdx : 0 < dx) (hp : Per h w dx (D 0 0)) (i : ZMod h) (j : ZMod w) :
    |samp h w dx (D 0 0) (i + 1) j - samp h w dx (D 0 0) i j| ≤ B * dx := by
  have := Convex.norm_image_sub_le_of_norm_hasDerivWithin_le (f := fun y => D 0 0 y (j.val * dx))
    (f' := fun y => D 1 0 y (j.val * dx)) (s := univ) (C := B)
    (fun t _ => (hD.dy 0 0 (by omega) t _).hasDerivWithinAt)
    (fun t _ => hD.bound 1 0 (by omega) t _) convex_univ (mem_univ (i.val * dx)) (mem_univ (i.val * dx + dx))
  unfold samp
  rw [sampUp hp]
  refine le_trans this (le_of_eq ?_)
  rw [add_sub_cancel_left, Real.norm_eq_abs, abs_of_pos hdx]

theorem samp_diffX {r : ℕ} {D : ℕ → ℕ → ℝ → ℝ → ℝ} {B dx : ℝ} (hD : Partials r D B) (hr : 1 ≤ r)
    (hdx : 0 < dx) (hp : Per h w dx (D 0 0)) (i : ZMod h) (j : ZMod w) :
    |samp h w dx (D 0 0) i (j + 1) - samp h w dx (D 0 0) i j| ≤ B * dx := by
  have := Convex.norm_image_sub_le_of_norm_hasDerivWithin_le (f := fun x => D 0 0 (i.val * dx) x)
    (f' := fun x => D 0 1 (i.val * dx) x) (s := univ) (C := B)
    (fun t _ => (hD.dx 0 0 (by omega) _ t).hasDerivWithinAt)
    (fun t _ => hD.bound 0 1 (by omega) _ t) convex_univ (mem_univ (j.val * dx)) (mem_univ (j.val * dx + dx))
  unfold samp
  rw [sampRight hp]
  refine le_trans this (le_of_eq ?_)
  rw [add_sub_cancel_left, Real.norm_eq_abs, abs_of_pos hdx]

/-- constant of the residual of the sampled Poisson equation -/
noncomputable def resK (B : ℝ) : ℝ := 2 * (B / 6) ^ 2 + 2 * (Real.pi ^ 4 / 192) ^ 2 * (4 * B) ^ 2

theorem resK_nonneg (B : ℝ) : 0 ≤ resK B := by unfold resK; positivity

/-- the sampled vorticity is close to the spectral Laplacian of the sampled potential -/
theorem residual_le {D : ℕ → ℕ → ℝ → ℝ → ℝ} {W : ℝ → ℝ → ℝ} {B dx : ℝ} (hD : Partials 4 D B) (hdx : 0 < dx)
    (hp : Per h w dx (D 0 0)) (hW : ∀ y x, D 2 0 y x + D 0 2 y x = W y x) :
    Q (fun i j => samp h w dx W i j - slap dx (samp h w dx (D 0 0)) i j)
      ≤ (h : ℝ) * w * (resK B * dx ^ 4) := by
  set p := samp h w dx (D 0 0) with hpd
  have h1 : Q (fun i j => samp h w dx W i j - lap dx p i j) ≤ (h : ℝ) * w * (B * dx ^ 2 / 6) ^ 2 := by
    refine Q_bound fun i j => ?_
    rw [hpd, lap_samp hp, abs_sub_comm]
    have := Lh_err hD (a := 0) (b := 0) (by omega) hdx (i.val * dx) (j.val * dx)
    unfold samp
    rw [← hW]
    exact this
  have h2 : Q (lap dx (lap dx p)) ≤ (h : ℝ) * w * (4 * B) ^ 2 := by
    refine Q_bound fun i j => ?_
    have := lap_iterate_samp hp 2
    have e : lap dx (lap dx p) = samp h w dx ((Lh dx)^[2] (D 0 0)) := this
    rw [e]
    have := Lh_iterate_le hdx 2 hD (i.val * dx) (j.val * dx)
    unfold samp
    refine this.trans_eq ?_
    norm_num
  have h3 := slap_lap hdx p
  have e : (fun i j => samp h w dx W i j - slap dx p i j)
      = fun i j => (samp h w dx W i j - lap dx p i j) + (lap dx p i j - slap dx p i j) := by
    funext i j; ring
  have e2 : Q (fun i j => lap dx p i j - slap dx p i j) = Q (fun i j => slap dx p i j - lap dx p i j) :=
    S_congr fun i j => by ring
  rw [e]
  refine (Q_add_le _ _).trans ?_
  rw [e2]
  have h4 := h3.trans (mul_le_mul_of_nonneg_left h2 (sq_nonneg _))
  unfold resK
  nlinarith

/-- constant of the error of the potential -/
noncomputable def potK (B L : ℝ) : ℝ := 2 * poin L ^ 2 * resK B + 2 * (B / 12) ^ 2 + poin L * resK B

theorem potK_nonneg (B L : ℝ) : 0 ≤ potK B L := by
  have := poin_nonneg L
  have := resK_nonneg B
  unfold potK; positivity

/-- the potential computed from the sampled vorticity is second-order accurate, and so are its differences -/
theorem potential_le {D : ℕ → ℕ → ℝ → ℝ → ℝ} {W : ℝ → ℝ → ℝ} {B dx Ly Lx L : ℝ} (hD : Partials 4 D B)
    (hdx : 0 < dx) (hp : Per h w dx (D 0 0)) (hW : ∀ y x, D 2 0 y x + D 0 2 y x = W y x)
    (hy : h * dx = Ly) (hx : w * dx = Lx) (h0 : ∫ x in 0..Lx, ∫ y in 0..Ly, D 0 0 y x = 0)
    (ly : Ly ≤ L) (lx : Lx ≤ L) :
    Q (phiF dx (samp h w dx W) - samp h w dx (D 0 0))
      + dirichlet (phiF dx (samp h w dx W) - samp h w dx (D 0 0)) (phiF dx (samp h w dx W) - samp h w dx (D 0 0))
        / dx ^ 2 ≤ (h : ℝ) * w * (potK B L * dx ^ 4) := by
  have hB := hD.nonneg
  set p := samp h w dx (D 0 0) with hpd
  set o := samp h w dx W with hod
  set r : Fld h w := fun i j => o i j - slap dx p i j with hr
  have hm := avg_samp_le (hD.mono (by omega : 2 ≤ 4)) hdx hp hy hx h0
  rw [← hpd] at hm
  have hres := residual_le hD hdx hp hW
  have e : phiF dx o - p = fun i j => phiF dx r i j + (fun _ _ => - avg p) i j := by
    have h1 := phiF_lin dx 1 (-1) 0 o (slap dx p)
    simp only [one_mul, neg_mul, add_zero, ← sub_eq_add_neg] at h1
    have h2 := phiF_slap hdx.ne' p
    funext i j
    have h3 := congrFun (congrFun h1 i) j
    change phiF dx r i j = _ at h3
    have h4 := congrFun (congrFun h2 i) j
    simp only [Pi.sub_apply]
    rw [h3, h4]; ring
  have ed : dirichlet (phiF dx o - p) (phiF dx o - p) = dirichlet (phiF dx r) (phiF dx r) := by
    rw [e]; unfold dirichlet
    exact S_congr fun i j => by ring
  have hh : h * dx ≤ L := by rw [hy]; exact ly
  have hw : w * dx ≤ L := by rw [hx]; exact lx
  have q1 := phi_Q hdx hh hw r
  have q2 := phi_dirichlet hdx hh hw r
  have q3 : Q (fun (_ : ZMod h) (_ : ZMod w) => - avg p) ≤ (h : ℝ) * w * (B * dx ^ 2 / 12) ^ 2 :=
    Q_bound fun i j => by rw [abs_neg]; exact hm
  have q4 : Q (phiF dx o - p) ≤ 2 * Q (phiF dx r) + 2 * Q (fun (_ : ZMod h) (_ : ZMod w) => - avg p) := by
    rw [e]; exact Q_add_le _ _
  have q5 : dirichlet (phiF dx o - p) (phiF dx o - p) / dx ^ 2 ≤ poin L * Q r := by
    rw [ed, div_le_iff₀ (by positivity)]; linarith
  have hpn := poin_nonneg L
  have m1 : poin L ^ 2 * Q r ≤ poin L ^ 2 * ((h : ℝ) * w * (resK B * dx ^ 4)) :=
    mul_le_mul_of_nonneg_left hres (sq_nonneg _)
  have m2 : poin L * Q r ≤ poin L * ((h : ℝ) * w * (resK B * dx ^ 4)) :=
    mul_le_mul_of_nonneg_left hres hpn
  unfold potK
  nlinarith

/-! ### the semi-discrete solution against the solution of the equations -/

/-- constant of the squared error -/
noncomputable def molK (P : Params) (B L T : ℝ) : ℝ :=
  (molC P B * potK B L + 2 * pdeK P B ^ 2) * T * Real.exp (molA P B L * T)

theorem molK_nonneg (P : Params) (B L : ℝ) {T : ℝ} (hT : 0 ≤ T) : 0 ≤ molK P B L T := by
  have := molC_nonneg P B
  have := potK_nonneg B L
  unfold molK; positivity

theorem per_of {Ly Lx dx : ℝ} {F : ℝ → ℝ → ℝ} (hF : Periodic2 Ly Lx F) (hy : h * dx = Ly) (hx : w * dx = Lx) :
    Per h w dx F := ⟨fun y x => by rw [hy]; exact (hF y x).1, fun y x => by rw [hx]; exact (hF y x).2⟩

/-- **convergence of the semi-discrete equations**: the solution started from samples stays within
`C dx²` (root mean square) of the samples of the solution of the partial differential equations -/
theorem mol_converges (P : Params) (hdx : 0 < P.dx) (hnu : 0 ≤ P.nu) {Ly Lx T B L : ℝ} {r : ℕ} (hr : 4 ≤ r)
    (hr' : 2 * P.N + 2 ≤ r) {nf wf pf : ℝ → ℕ → ℕ → ℝ → ℝ → ℝ} (H : HWSolution P Ly Lx T r B nf wf pf)
    (hy : h * P.dx = Ly) (hx : w * P.dx = Lx) (ly : Ly ≤ L) (lx : Lx ≤ L) {Y : ℝ → Pair h w}
    (hY : ODE.Solves (ODE.F (linC P) (bilC P)) T Y)
    (h0 : Y 0 = (samp h w P.dx (nf 0 0 0), samp h w P.dx (wf 0 0 0))) :
    ∀ t ∈ Icc 0 T, Q ((Y t).1 - samp h w P.dx (nf t 0 0)) + Q ((Y t).2 - samp h w P.dx (wf t 0 0))
      ≤ (h : ℝ) * w * (molK P B L T * P.dx ^ 4) := by
  set V : ℝ → Pair h w := fun t => (samp h w P.dx (nf t 0 0), samp h w P.dx (wf t 0 0)) with hV
  set V' : ℝ → Pair h w := fun t => (samp h w P.dx (pdeN P Ly (nf t) (pf t)),
    samp h w P.dx (pdeO P Ly (nf t) (wf t) (pf t))) with hV'
  have dV : ∀ t ∈ Icc 0 T, HasDerivWithinAt V (V' t) (Icc 0 T) t := fun t ht =>
    hasDeriv_pair.2 fun i j => ⟨H.evolN t ht _ _, H.evolO t ht _ _⟩
  have dE : ∀ t ∈ Icc 0 T, HasDerivWithinAt (fun t => Y t - V t)
      (rhsU P (Y t) - V' t) (Icc 0 T) t := fun t ht => by
    have := hY t ht
    rw [← rhsU_eq] at this
    exact this.sub (dV t ht)
  set E : ℝ → ℝ := fun t => Q ((Y t).1 - samp h w P.dx (nf t 0 0)) + Q ((Y t).2 - samp h w P.dx (wf t 0 0)) with hE
  have eE : ∀ t, E t = innC (Y t - V t) (Y t - V t) := fun t => by
    rw [innC_apply]
    simp only [hE, Q, hV, Prod.fst_sub, Prod.snd_sub, sq]
  set E' : ℝ → ℝ := fun t => 2 * S (fun i j => ((Y t).1 i j - samp h w P.dx (nf t 0 0) i j)
        * (rhsN P (Y t).1 (phiF P.dx (Y t).2) i j - samp h w P.dx (pdeN P Ly (nf t) (pf t)) i j))
      + 2 * S (fun i j => ((Y t).2 i j - samp h w P.dx (wf t 0 0) i j)
        * (rhsO P (Y t).1 (Y t).2 (phiF P.dx (Y t).2) i j
          - samp h w P.dx (pdeO P Ly (nf t) (wf t) (pf t)) i j)) with hE'
  have dE2 : ∀ t ∈ Icc 0 T, HasDerivWithinAt E (E' t) (Icc 0 T) t := fun t ht => by
    have h1 := innC.hasFDerivWithinAt_of_bilinear (dE t ht).hasFDerivWithinAt (dE t ht).hasFDerivWithinAt
    have h2 := h1.hasDerivWithinAt
    have e : E = fun t => innC (Y t - V t) (Y t - V t) := funext eE
    rw [e]
    refine h2.congr_deriv ?_
    change innC (Y t - V t) ((1 : ℝ) • (rhsU P (Y t) - V' t)) + innC ((1 : ℝ) • (rhsU P (Y t) - V' t)) (Y t - V t) = _
    rw [one_smul]
    rw [innC_comm (rhsU P (Y t) - V' t), innC_apply]
    simp only [hE', hV, hV', rhsU, Prod.fst_sub, Prod.snd_sub, Pi.sub_apply]
    ring
  have bE : ∀ t ∈ Icc 0 T, E' t ≤ molA P B L * E t
      + (h : ℝ) * w * ((molC P B * potK B L + 2 * pdeK P B ^ 2) * P.dx ^ 4) := fun t ht => by
    have pn := H.smoothN t ht
    have po := H.smoothO t ht
    have pp := H.smoothP t ht
    have qn := per_of (H.periodicN t ht) hy hx
    have qo := per_of (H.periodicO t ht) hy hx
    have qp := per_of (H.periodicP t ht) hy hx
    have hB := pn.nonneg
    set n := samp h w P.dx (nf t 0 0)
    set o := samp h w P.dx (wf t 0 0)
    set p := samp h w P.dx (pf t 0 0)
    have hst := stable P hdx hnu (hy.trans_le ly) (hx.trans_le lx) n (Y t).1 o (Y t).2 p
      (samp_diffY pn (by omega) hdx qn) (samp_diffX pn (by omega) hdx qn)
      (samp_diffY po (by omega) hdx qo) (samp_diffX po (by omega) hdx qo)
    have hpot := potential_le (pp.mono hr) hdx qp (H.poisson t ht) hy hx (H.meanP t ht) ly lx
    change Q (phiF P.dx o - p) + dirichlet (phiF P.dx o - p) (phiF P.dx o - p) / P.dx ^ 2 ≤ _ at hpot
    set tn : Fld h w := fun i j => rhsN P n p i j - samp h w P.dx (pdeN P Ly (nf t) (pf t)) i j with htn
    set tw : Fld h w := fun i j => rhsO P n o p i j - samp h w P.dx (pdeO P Ly (nf t) (wf t) (pf t)) i j with htw
    have bn : Q tn ≤ (h : ℝ) * w * (pdeK P B * P.dx ^ 2) ^ 2 := Q_bound fun i j => by
      have := rhsN_err P hdx hr hr' pn pp qn qp i j
      rw [hy] at this
      exact this
    have bo : Q tw ≤ (h : ℝ) * w * (pdeK P B * P.dx ^ 2) ^ 2 := Q_bound fun i j => by
      have := rhsO_err P hdx hr hr' pn po pp qn qo qp i j
      rw [hy] at this
      exact this
    have yn := S_mul_le (fun i j => (Y t).1 i j - n i j) tn
    have yo := S_mul_le (fun i j => (Y t).2 i j - o i j) tw
    have split : E' t = (2 * S (fun i j => ((Y t).1 i j - n i j)
            * (rhsN P (Y t).1 (phiF P.dx (Y t).2) i j - rhsN P n p i j))
          + 2 * S (fun i j => ((Y t).2 i j - o i j)
            * (rhsO P (Y t).1 (Y t).2 (phiF P.dx (Y t).2) i j - rhsO P n o p i j)))
        + 2 * S (fun i j => ((Y t).1 i j - n i j) * tn i j) + 2 * S (fun i j => ((Y t).2 i j - o i j) * tw i j) := by
      simp only [hE', htn, htw]
      have a : ∀ (u a b c : Fld h w), S (fun i j => u i j * (a i j - c i j))
          = S (fun i j => u i j * (a i j - b i j)) + S (fun i j => u i j * (b i j - c i j)) := by
        intro u a b c
        rw [← S_add]; exact S_congr fun i j => by ring
      rw [a (fun i j => (Y t).1 i j - n i j) _ (rhsN P n p), a (fun i j => (Y t).2 i j - o i j) _ (rhsO P n o p)]
      ring
    have eEt : E t = Q (fun i j => (Y t).1 i j - n i j) + Q (fun i j => (Y t).2 i j - o i j) := rfl
    rw [split, eEt]
    have m := mul_le_mul_of_nonneg_left hpot (molC_nonneg P B)
    nlinarith
  have hcard : (0 : ℝ) ≤ (h : ℝ) * w := cardR_pos.le
  have hK0 : 0 ≤ (molC P B * potK B L + 2 * pdeK P B ^ 2) := by
    have := molC_nonneg P B
    have := potK_nonneg B L
    positivity
  intro t ht
  have g := gronwall (molA_nonneg P B L) (by positivity) dE2 bE t ht
  have e0 : E 0 = 0 := by
    rw [eE, hV, h0]; simp
  rw [e0, zero_add] at g
  refine g.trans ?_
  have h1 : Real.exp (molA P B L * t) ≤ Real.exp (molA P B L * T) :=
    Real.exp_le_exp.mpr (mul_le_mul_of_nonneg_left ht.2 (molA_nonneg P B L))
  have h2 : (h : ℝ) * w * ((molC P B * potK B L + 2 * pdeK P B ^ 2) * P.dx ^ 4) * t
      ≤ (h : ℝ) * w * ((molC P B * potK B L + 2 * pdeK P B ^ 2) * P.dx ^ 4) * T :=
    mul_le_mul_of_nonneg_left ht.2 (by positivity)
  have hT : 0 ≤ T := ht.1.trans ht.2
  calc _ ≤ (h : ℝ) * w * ((molC P B * potK B L + 2 * pdeK P B ^ 2) * P.dx ^ 4) * T * Real.exp (molA P B L * T) :=
        mul_le_mul h2 h1 (Real.exp_pos _).le (by positivity)
    _ = _ := by unfold molK; ring

end Verif
