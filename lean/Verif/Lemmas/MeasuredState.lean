import Verif.Lemmas.SpectralSmall
import Verif.Lemmas.Parts
import Verif.Lemmas.PropertyMeaning
import Verif.Model.RunPropsHW
import Verif.Spec.Properties

/-!
# The eight properties of an approximate state
-/

set_option linter.unusedSectionVars false

namespace Verif

open Spec Arr Set RunProperties Properties

section
variable {h w : ℕ} [NeZero h] [NeZero w]

theorem Small.mono {dx K M : ℝ} {f : Fld h w} (hK : 0 ≤ K) (H : Small dx K f) (hM : K ≤ M) : Small dx M f := by
  unfold Small at *
  refine H.trans (mul_le_mul_of_nonneg_left ?_ cardR_pos.le)
  exact pow_le_pow_left₀ (by positivity) (mul_le_mul_of_nonneg_right hM (sq_nonneg dx)) 2

theorem Small.sub {dx K M : ℝ} {f g : Fld h w} (hK : 0 ≤ K) (hM : 0 ≤ M) (Hf : Small dx K f) (Hg : Small dx M g) :
    Small dx (2 * (K + M)) (f - g) := by
  have hn : Small dx M (-g) := by
    unfold Small at *
    refine le_trans (le_of_eq ?_) Hg
    unfold Q
    exact S_congr fun i j => by simp
  have := Hf.add hK hM hn
  rwa [← sub_eq_add_neg] at this

theorem partials_mono {r : ℕ} {D : ℕ → ℕ → ℝ → ℝ → ℝ} {A B : ℝ} (hD : Partials r D A) (h : A ≤ B) : Partials r D B :=
  ⟨hD.dy, hD.dx, fun a b hab y x => (hD.bound a b hab y x).trans h⟩

theorem partials_sub {r : ℕ} {D E : ℕ → ℕ → ℝ → ℝ → ℝ} {A B : ℝ} (hD : Partials r D A) (hE : Partials r E B) :
    Partials r (fun a b y x => D a b y x - E a b y x) (A + B) :=
  ⟨fun a b hab y x => (hD.dy a b hab y x).sub (hE.dy a b hab y x),
    fun a b hab y x => (hD.dx a b hab y x).sub (hE.dx a b hab y x),
    fun a b hab y x => (abs_sub _ _).trans (add_le_add (hD.bound a b hab y x) (hE.bound a b hab y x))⟩

/-- error constant of the mean of a product -/
noncomputable def prodK (K B L : ℝ) : ℝ := K * K * L ^ 2 + K * B + B * K + B * B

theorem prodK_nonneg {K B : ℝ} (hK : 0 ≤ K) (hB : 0 ≤ B) (L : ℝ) : 0 ≤ prodK K B L := by unfold prodK; positivity

theorem avg_product_le {D E : ℕ → ℕ → ℝ → ℝ → ℝ} {F G : ℝ → ℝ → ℝ} {B K dx Ly Lx L : ℝ} {f g : Fld h w}
    (hD : Partials 2 D B) (hE : Partials 2 E B) (eD : D 0 0 = F) (eE : E 0 0 = G) (hdx : 0 < dx) (hL : dx ≤ L)
    (pD : Periodic2 Ly Lx F) (pE : Periodic2 Ly Lx G)
    (hy : h * dx = Ly) (hx : w * dx = Lx) (hK : 0 ≤ K) (hf : Small dx K (f - samp h w dx F))
    (hg : Small dx K (g - samp h w dx G)) :
    |(avg fun i j => f i j * g i j) - boxMean Ly Lx fun y x => F y x * G y x| ≤ prodK K B L * dx ^ 2 := by
  subst eD eE
  have := avg_product hD hE hdx (per_of pD hy hx) (per_of pE hy hx) hy hx hK hK hf hg
  refine this.trans (mul_le_mul_of_nonneg_right ?_ (sq_nonneg dx))
  unfold prodK
  have h2 : dx ^ 2 ≤ L ^ 2 := pow_le_pow_left₀ hdx.le hL 2
  have := mul_le_mul_of_nonneg_left h2 (mul_nonneg hK hK)
  linarith

theorem avg_square_le {D : ℕ → ℕ → ℝ → ℝ → ℝ} {F : ℝ → ℝ → ℝ} {B K dx Ly Lx L : ℝ} {f : Fld h w} (hD : Partials 2 D B)
    (eD : D 0 0 = F) (hdx : 0 < dx) (hL : dx ≤ L) (pD : Periodic2 Ly Lx F) (hy : h * dx = Ly) (hx : w * dx = Lx)
    (hK : 0 ≤ K) (hf : Small dx K (f - samp h w dx F)) :
    |(avg fun i j => f i j ^ 2) - boxMean Ly Lx fun y x => F y x ^ 2| ≤ prodK K B L * dx ^ 2 := by
  have := avg_product_le hD hD eD eD hdx hL pD pD hy hx hK hf hf
  simpa only [sq] using this

/-- the largest of the constants of the fields entering the properties -/
noncomputable def fieldK (K B L : ℝ) : ℝ :=
  2 * (K + 2 * (poin L * errK K B + B / 12)) + 2 * (Real.sqrt (poin L) * errK K B + 2 * (B + B / 6))
    + 2 * (K + 2 * (errK K B + B / 6)) + 4 * K

/-- error constant of the properties -/
noncomputable def measK (c1 K B L : ℝ) : ℝ := (2 + |c1|) * prodK (fieldK K B L) (2 * B) L

end

/-- the bound of the statement below for one of the properties -/
def MeasuredAs (dx c1 L : ℝ) (nf wf pf : ℕ → ℕ → ℝ → ℝ → ℝ) (n p o : Arr ℝ) (C : ℝ) (name : String) : Prop :=
  ∃ v, propValue name dx c1 n p o = .ok v ∧ |v - physical L L c1 nf wf pf name| ≤ C

theorem measuredAs_gamma_n {dx c1 L C : ℝ} {nf wf pf : ℕ → ℕ → ℝ → ℝ → ℝ} {n p o : Arr ℝ} {v : ℝ}
    (h1 : get_gamma_n n p dx = .ok v) (h2 : |v - (-boxMean L L fun y x => nf 0 0 y x * pf 1 0 y x)| ≤ C) :
    MeasuredAs dx c1 L nf wf pf n p o C "gamma_n" := by
  refine ⟨v, ?_, ?_⟩
  · unfold propValue
    simp only [String.reduceEq, if_true, if_false]
    exact h1
  · unfold physical
    exact h2

theorem measuredAs_gamma_n_spectral {dx c1 L C : ℝ} {nf wf pf : ℕ → ℕ → ℝ → ℝ → ℝ} {n p o : Arr ℝ} {v : ℝ}
    (h1 : get_gamma_n_spectrally n p dx = .ok v) (h2 : |v - (-boxMean L L fun y x => nf 0 0 y x * pf 1 0 y x)| ≤ C) :
    MeasuredAs dx c1 L nf wf pf n p o C "gamma_n_spectral" := by
  refine ⟨v, ?_, ?_⟩
  · unfold propValue
    simp only [String.reduceEq, if_true, if_false]
    exact h1
  · unfold physical
    exact h2

theorem measuredAs_gamma_c {dx c1 L C : ℝ} {nf wf pf : ℕ → ℕ → ℝ → ℝ → ℝ} {n p o : Arr ℝ} {v : ℝ}
    (h1 : get_gamma_c n p c1 dx = .ok v) (h2 : |v - (c1 * boxMean L L fun y x => (nf 0 0 y x - pf 0 0 y x) ^ 2)| ≤ C) :
    MeasuredAs dx c1 L nf wf pf n p o C "gamma_c" := by
  refine ⟨v, ?_, ?_⟩
  · unfold propValue
    simp only [String.reduceEq, if_true, if_false]
    exact h1
  · unfold physical
    exact h2

theorem measuredAs_energy {dx c1 L C : ℝ} {nf wf pf : ℕ → ℕ → ℝ → ℝ → ℝ} {n p o : Arr ℝ} {v : ℝ}
    (h1 : get_energy n p dx = .ok v) (h2 : |v - ((boxMean L L fun y x => nf 0 0 y x ^ 2 + pf 0 1 y x ^ 2 + pf 1 0 y x ^ 2) / 2)| ≤ C) :
    MeasuredAs dx c1 L nf wf pf n p o C "energy" := by
  refine ⟨v, ?_, ?_⟩
  · unfold propValue
    simp only [String.reduceEq, if_true, if_false]
    exact h1
  · unfold physical
    exact h2

theorem measuredAs_thermal_energy {dx c1 L C : ℝ} {nf wf pf : ℕ → ℕ → ℝ → ℝ → ℝ} {n p o : Arr ℝ} {v : ℝ}
    (h1 : get_energy_N_spectrally n = .ok v) (h2 : |v - ((boxMean L L fun y x => nf 0 0 y x ^ 2) / 2)| ≤ C) :
    MeasuredAs dx c1 L nf wf pf n p o C "thermal_energy" := by
  refine ⟨v, ?_, ?_⟩
  · unfold propValue
    simp only [String.reduceEq, if_true, if_false]
    exact h1
  · unfold physical
    exact h2

theorem measuredAs_kinetic_energy {dx c1 L C : ℝ} {nf wf pf : ℕ → ℕ → ℝ → ℝ → ℝ} {n p o : Arr ℝ} {v : ℝ}
    (h1 : get_energy_V_spectrally p dx = .ok v) (h2 : |v - ((boxMean L L fun y x => pf 0 1 y x ^ 2 + pf 1 0 y x ^ 2) / 2)| ≤ C) :
    MeasuredAs dx c1 L nf wf pf n p o C "kinetic_energy" := by
  refine ⟨v, ?_, ?_⟩
  · unfold propValue
    simp only [String.reduceEq, if_true, if_false]
    exact h1
  · unfold physical
    exact h2

theorem measuredAs_enstrophy {dx c1 L C : ℝ} {nf wf pf : ℕ → ℕ → ℝ → ℝ → ℝ} {n p o : Arr ℝ} {v : ℝ}
    (h1 : get_enstrophy n o dx = .ok v) (h2 : |v - ((boxMean L L fun y x => (nf 0 0 y x - wf 0 0 y x) ^ 2) / 2)| ≤ C) :
    MeasuredAs dx c1 L nf wf pf n p o C "enstrophy" := by
  refine ⟨v, ?_, ?_⟩
  · unfold propValue
    simp only [String.reduceEq, if_true, if_false]
    exact h1
  · unfold physical
    exact h2

theorem measuredAs_enstrophy_phi {dx c1 L C : ℝ} {nf wf pf : ℕ → ℕ → ℝ → ℝ → ℝ} {n p o : Arr ℝ} {v : ℝ}
    (h1 : get_enstrophy_phi n p dx = .ok v) (h2 : |v - ((boxMean L L fun y x => (nf 0 0 y x - wf 0 0 y x) ^ 2) / 2)| ≤ C) :
    MeasuredAs dx c1 L nf wf pf n p o C "enstrophy_phi" := by
  refine ⟨v, ?_, ?_⟩
  · unfold propValue
    simp only [String.reduceEq, if_true, if_false]
    exact h1
  · unfold physical
    exact h2

section
variable {m : ℕ} [NeZero m] {nf wf pf : ℕ → ℕ → ℝ → ℝ → ℝ} {B K dx L c1 : ℝ} {n o : Fld m m} {r : ℕ}

theorem measured_ofField (hr : 4 ≤ r) (hK : 0 ≤ K) (sn : Partials r nf B) (sw : Partials r wf B) (sp : Partials r pf B)
    (pn : Periodic2 L L (nf 0 0)) (pw : Periodic2 L L (wf 0 0)) (pp : Periodic2 L L (pf 0 0))
    (hpo : ∀ y x, pf 2 0 y x + pf 0 2 y x = wf 0 0 y x) (h0 : ∫ x in 0..L, ∫ y in 0..L, pf 0 0 y x = 0)
    (hdx : 0 < dx) (hL : m * dx = L) (en : Small dx K (n - samp m m dx (nf 0 0))) (eo : Small dx K (o - samp m m dx (wf 0 0)))
    {name : String} (hname : name ∈ propertyTable) (hev : name = "gamma_n_spectral" → Even m) :
    MeasuredAs dx c1 L nf wf pf (ofField n) (ofField (phiF dx o)) (ofField o) (measK c1 K B L * dx ^ 2) name := by
  have hB := sn.nonneg
  have hm : (1 : ℝ) ≤ m := by exact_mod_cast NeZero.one_le
  have hdL : dx ≤ L := by rw [← hL]; nlinarith
  have l0 : 0 < L := hdx.trans_le hdL
  have sp4 := sp.mono hr
  have hper : Per m m dx (pf 0 0) := per_of pp hL hL
  have eK := errK_nonneg hK B
  have pL := poin_nonneg L
  have qL := Real.sqrt_nonneg (poin L)
  have m1 : 0 ≤ poin L * errK K B := by positivity
  have m2 : 0 ≤ Real.sqrt (poin L) * errK K B := by positivity
  have hF : 0 ≤ fieldK K B L := by unfold fieldK; positivity
  have hP := prodK_nonneg hF (by positivity : 0 ≤ 2 * B) L
  have hdd := mul_nonneg hP (sq_nonneg dx)
  have ac := abs_nonneg c1
  have hcd := mul_nonneg ac hdd
  have eM : measK c1 K B L * dx ^ 2 = 2 * (prodK (fieldK K B L) (2 * B) L * dx ^ 2)
      + |c1| * (prodK (fieldK K B L) (2 * B) L * dx ^ 2) := by unfold measK; ring
  rw [eM]
  -- the computed fields
  have fphi := phi_small hK sp4 hdx hper hpo hL hL le_rfl le_rfl h0 eo
  obtain ⟨fgy, fgx⟩ := grad_small hK sp4 hdx hper hpo hL hL le_rfl le_rfl eo
  have flap := lap_small hK sp4 hdx hper hpo eo
  have kn : Small dx (fieldK K B L) (n - samp m m dx (nf 0 0)) := en.mono hK (by unfold fieldK; linarith)
  have ko : Small dx (fieldK K B L) (o - samp m m dx (wf 0 0)) := eo.mono hK (by unfold fieldK; linarith)
  have kphi := fphi.mono (M := fieldK K B L) (by positivity) (by unfold fieldK; linarith)
  have kgy := fgy.mono (M := fieldK K B L) (by positivity) (by unfold fieldK; linarith)
  have kgx := fgx.mono (M := fieldK K B L) (by positivity) (by unfold fieldK; linarith)
  have sub_samp : ∀ (f g : Fld m m) (F G : ℝ → ℝ → ℝ), (f - samp m m dx F) - (g - samp m m dx G)
      = (f - g) - samp m m dx fun y x => F y x - G y x := fun f g F G => by
    funext i j; simp only [Pi.sub_apply, samp]; ring
  have knp : Small dx (fieldK K B L) ((n - phiF dx o) - samp m m dx fun y x => nf 0 0 y x - pf 0 0 y x) := by
    rw [← sub_samp]
    exact (en.sub hK (by positivity) fphi).mono (by positivity) (by unfold fieldK; linarith)
  have kno : Small dx (fieldK K B L) ((n - o) - samp m m dx fun y x => nf 0 0 y x - wf 0 0 y x) := by
    rw [← sub_samp]
    exact (en.sub hK hK eo).mono (by positivity) (by unfold fieldK; linarith)
  have knl : Small dx (fieldK K B L) ((n - lap dx (phiF dx o)) - samp m m dx fun y x => nf 0 0 y x - wf 0 0 y x) := by
    rw [← sub_samp]
    exact (en.sub hK (by positivity) flap).mono (by positivity) (by unfold fieldK; linarith)
  -- their limits
  have Bn : Partials 2 nf (2 * B) := partials_mono (sn.mono (by omega)) (by linarith)
  have Bw : Partials 2 wf (2 * B) := partials_mono (sw.mono (by omega)) (by linarith)
  have Bp : Partials 2 pf (2 * B) := partials_mono (sp.mono (by omega)) (by linarith)
  have Bpy : Partials 2 (fun a b => pf (1 + a) (0 + b)) (2 * B) :=
    partials_mono (partials_shift sp (by omega)) (by linarith)
  have Bpx : Partials 2 (fun a b => pf (0 + a) (1 + b)) (2 * B) :=
    partials_mono (partials_shift sp (by omega)) (by linarith)
  have Bnp : Partials 2 (fun a b y x => nf a b y x - pf a b y x) (2 * B) :=
    partials_mono (partials_sub (sn.mono (by omega)) (sp.mono (by omega))) (by linarith)
  have Bnw : Partials 2 (fun a b y x => nf a b y x - wf a b y x) (2 * B) :=
    partials_mono (partials_sub (sn.mono (by omega)) (sw.mono (by omega))) (by linarith)
  have Ppy := periodic_dy (by omega) sp pp
  have Ppx := periodic_dx (by omega) sp pp
  have Pnp : Periodic2 L L fun y x => nf 0 0 y x - pf 0 0 y x := fun y x => by
    simp only [(pn y x).1, (pn y x).2, (pp y x).1, (pp y x).2, and_self]
  have Pnw : Periodic2 L L fun y x => nf 0 0 y x - wf 0 0 y x := fun y x => by
    simp only [(pn y x).1, (pn y x).2, (pw y x).1, (pw y x).2, and_self]
  have half : ∀ {a b : ℝ}, |a - b| ≤ prodK (fieldK K B L) (2 * B) L * dx ^ 2 →
      |a / 2 - b / 2| ≤ 2 * (prodK (fieldK K B L) (2 * B) L * dx ^ 2)
        + |c1| * (prodK (fieldK K B L) (2 * B) L * dx ^ 2) := fun {a b} H => by
    rw [← sub_div, abs_div, abs_two]
    linarith
  have one : ∀ {a b : ℝ}, |a - b| ≤ prodK (fieldK K B L) (2 * B) L * dx ^ 2 →
      |-a - -b| ≤ 2 * (prodK (fieldK K B L) (2 * B) L * dx ^ 2)
        + |c1| * (prodK (fieldK K B L) (2 * B) L * dx ^ 2) := fun {a b} H => by
    rw [neg_sub_neg, abs_sub_comm]
    linarith
  simp only [propertyTable, List.mem_cons, List.not_mem_nil, or_false] at hname
  rcases hname with rfl | rfl | rfl | rfl | rfl | rfl | rfl | rfl
  · have t := avg_product_le Bn Bpy rfl rfl hdx hdL pn Ppy hL hL hF kn kgy
    exact measuredAs_gamma_n (gamma_n_ofField n _ dx) (one t)
  · obtain ⟨q, hq⟩ := hev rfl
    obtain ⟨g, hg⟩ := exists_dy (phiF dx o) dx
    refine measuredAs_gamma_n_spectral (gamma_n_spectral_ofField n _ dx) ?_
    rw [gamma_n_spectral_even n _ g dx q (by omega) hg]
    have kg := (dy_small hK sp4 hdx hper hpo hL hL le_rfl le_rfl eo hg).mono (M := fieldK K B L) (by positivity)
      (by unfold fieldK; linarith)
    have t := avg_product_le Bn Bpy rfl rfl hdx hdL pn Ppy hL hL hF kn kg
    exact one t
  · refine measuredAs_gamma_c (gamma_c_ofField n _ c1 dx) ?_
    have := avg_square_le Bnp rfl hdx hdL Pnp hL hL hF knp
    unfold gamC
    rw [← mul_sub, abs_mul]
    have h2 := mul_le_mul_of_nonneg_left this ac
    refine h2.trans ?_
    linarith
  · refine measuredAs_energy (energy_ofField n _ dx) ?_
    have t1 := avg_square_le Bn rfl hdx hdL pn hL hL hF kn
    have t2 := avg_square_le Bpx rfl hdx hdL Ppx hL hL hF kgx
    have t3 := avg_square_le Bpy rfl hdx hdL Ppy hL hL hF kgy
    have cc : ∀ {D : ℕ → ℕ → ℝ → ℝ → ℝ}, Partials 2 D (2 * B) → Continuous fun z : ℝ × ℝ => D 0 0 z.1 z.2 :=
      fun H => H.continuous (by omega)
    have e1 : (boxMean L L fun y x => nf 0 0 y x ^ 2 + pf 0 1 y x ^ 2 + pf 1 0 y x ^ 2)
        = boxMean L L (fun y x => nf 0 0 y x ^ 2) + boxMean L L (fun y x => pf 0 1 y x ^ 2)
          + boxMean L L fun y x => pf 1 0 y x ^ 2 := by
      rw [boxMean_add (fun y x => nf 0 0 y x ^ 2 + pf 0 1 y x ^ 2) (fun y x => pf 1 0 y x ^ 2)
        (((cc Bn).pow 2).add ((cc Bpx).pow 2)) ((cc Bpy).pow 2),
        boxMean_add (fun y x => nf 0 0 y x ^ 2) (fun y x => pf 0 1 y x ^ 2) ((cc Bn).pow 2) ((cc Bpx).pow 2)]
    have e2 : (avg fun i j => n i j ^ 2 + (gradX dx (phiF dx o) i j ^ 2 + gradY dx (phiF dx o) i j ^ 2))
        = avg (fun i j => n i j ^ 2) + avg (fun i j => gradX dx (phiF dx o) i j ^ 2)
          + avg fun i j => gradY dx (phiF dx o) i j ^ 2 := by
      unfold avg
      rw [S_add, S_add]
      ring
    rw [e1, e2, ← sub_div, abs_div, abs_two]
    have t4 := abs_add_three (avg (fun i j => n i j ^ 2) - boxMean L L fun y x => nf 0 0 y x ^ 2)
      (avg (fun i j => gradX dx (phiF dx o) i j ^ 2) - boxMean L L fun y x => pf 0 1 y x ^ 2)
      (avg (fun i j => gradY dx (phiF dx o) i j ^ 2) - boxMean L L fun y x => pf 1 0 y x ^ 2)
    have e3 : ∀ a b c a' b' c' : ℝ, a + b + c - (a' + b' + c') = (a - a') + (b - b') + (c - c') := by intros; ring
    rw [e3]
    have t5 := t4.trans (add_le_add (add_le_add t1 t2) t3)
    linarith
  · have t := avg_square_le Bn rfl hdx hdL pn hL hL hF kn
    exact measuredAs_thermal_energy (energy_N_ofField n) (half t)
  · refine measuredAs_kinetic_energy (energy_V_ofField (phiF dx o) dx) ?_
    rw [energy_V_phi o hdx.ne']
    have t1 := avg_product_le Bp Bw rfl rfl hdx hdL pp pw hL hL hF kphi ko
    have t2 := box_parts (by omega) sp pp l0 l0
    simp only [hpo] at t2
    rw [← neg_eq_iff_eq_neg.mpr t2]
    refine half ?_
    rw [neg_sub_neg, abs_sub_comm]
    exact t1
  · have t := avg_square_le Bnw rfl hdx hdL Pnw hL hL hF kno
    exact measuredAs_enstrophy (enstrophy_ofField n o dx) (half t)
  · refine measuredAs_enstrophy_phi (enstrophy_phi_ofField n _ dx) ?_
    have hz : avg (lap dx (phiF dx o)) = 0 := by unfold avg; rw [S_lap, zero_div]
    rw [hz]
    simp only [sub_zero]
    have t := avg_square_le Bnw rfl hdx hdL Pnw hL hL hF knl
    exact half t

end

end Verif
