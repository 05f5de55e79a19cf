import Verif.Props.HWCommon
import Verif.Lemmas.HWField
import Verif.Lemmas.HWLinear

/-!
# Fields that do not depend on `y`
-/

set_option linter.unusedSectionVars false

namespace Verif

open Arr Spec Props

variable {h w : ℕ} [NeZero h] [NeZero w]

/-- the field does not depend on `y` -/
def YC (f : Fld h w) : Prop := ∀ s : ZMod h, shift s 0 f = f

theorem YC.eq {f : Fld h w} (H : YC f) (i i' : ZMod h) (j : ZMod w) : f i j = f i' j := by
  have := congrFun (congrFun (H (i - i')) i) j
  unfold shift at this
  rw [sub_sub_cancel, sub_zero] at this
  exact this.symm

theorem YC.of_eq {f : Fld h w} (H : ∀ i i' j, f i j = f i' j) : YC f := fun s => by
  funext i j
  unfold shift
  rw [sub_zero]
  exact H _ _ _

theorem YC.add {f g : Fld h w} (hf : YC f) (hg : YC g) : YC (f + g) :=
  YC.of_eq fun i i' j => by rw [Pi.add_apply, Pi.add_apply, Pi.add_apply, Pi.add_apply, hf.eq i i' j, hg.eq i i' j]

theorem YC.smul {f : Fld h w} (hf : YC f) (c : ℝ) : YC (c • f) :=
  YC.of_eq fun i i' j => by rw [Pi.smul_apply, Pi.smul_apply, Pi.smul_apply, Pi.smul_apply, hf.eq i i' j]

theorem YC.phi {f : Fld h w} (hf : YC f) (dx : ℝ) : YC (phiF dx f) := fun s => by
  rw [← phiF_shift, hf s]

theorem YC.lapN {f : Fld h w} (hf : YC f) (dx : ℝ) (N : ℕ) : YC ((lap dx)^[N] f) := fun s => by
  rw [← lap_iterate_shift, hf s]

theorem YC.hyper {f : Fld h w} (hf : YC f) (P : Params) : YC (Spec.hyper P f) :=
  YC.of_eq fun i i' j => by unfold Spec.hyper; rw [(hf.lapN P.dx P.N).eq i i' j]

theorem YC.nonZonal {f : Fld h w} (hf : YC f) : Spec.nonZonal f = 0 := by
  funext i j
  unfold Spec.nonZonal
  rw [Finset.sum_congr rfl fun i' _ => hf.eq i' i j, Finset.sum_const, Finset.card_univ, ZMod.card, nsmul_eq_mul,
    mul_div_cancel_left₀ _ (Nat.cast_ne_zero.mpr (NeZero.ne h)), sub_self]
  rfl

theorem YC.gradY {f : Fld h w} (hf : YC f) (dx : ℝ) : Spec.gradY dx f = 0 := by
  funext i j
  unfold Spec.gradY
  rw [hf.eq (i + 1) (i - 1) j, sub_self, zero_div]
  rfl

theorem YC.jac {f g : Fld h w} (hf : YC f) (hg : YC g) (dx : ℝ) : Spec.jac dx f g = 0 := by
  funext i j
  unfold Spec.jac
  rw [hf.eq (i + 1) i j, hf.eq (i - 1) i j, hf.eq (i - 1) i (j + 1), hf.eq (i + 1) i (j + 1), hf.eq (i + 1) i (j - 1),
    hf.eq (i - 1) i (j - 1), hg.eq (i + 1) i j, hg.eq (i - 1) i j, hg.eq (i + 1) i (j + 1), hg.eq (i - 1) i (j + 1),
    hg.eq (i + 1) i (j - 1), hg.eq (i - 1) i (j - 1)]
  have : ∀ x : ℝ, x = 0 → x / (((12 : ℕ) : ℝ) * dx ^ 2) = (0 : Fld h w) i j := fun x hx => by rw [hx, zero_div]; rfl
  exact this _ (by ring)

/-- only the hyperdiffusion acts on the density … -/
theorem rhsN_zonal {P : Params} (hz : P.zonal = true) {n p : Fld h w} (hn : YC n) (hp : YC p) : rhsN P n p = hyper P n := by
  funext i j
  unfold rhsN couple
  rw [hz, hn.nonZonal, hp.nonZonal, hp.jac hn, hp.gradY]
  simp

/-- … and on the vorticity of a zonal flow -/
theorem rhsO_zonal {P : Params} (hz : P.zonal = true) {n o p : Fld h w} (hn : YC n) (ho : YC o) (hp : YC p) :
    rhsO P n o p = hyper P o := by
  funext i j
  unfold rhsO couple
  rw [hz, hn.nonZonal, hp.nonZonal, hp.jac ho]
  simp

/-- hyperdiffusion of both fields -/
noncomputable def diffU (P : Params) (u : Fld h w × Fld h w) : Fld h w × Fld h w := (hyper P u.1, hyper P u.2)

/-- density and vorticity after a step that only diffuses -/
noncomputable def diffStep (P : Params) : Step → Fld h w × Fld h w → Fld h w × Fld h w
  | .rk4 dt, u => rk4U (diffU P) dt u
  | .euler dt, u => dt • diffU P u + u

/-- density, vorticity and potential do not depend on `y` -/
def YCS (s : Sta h w) : Prop := YC s.1 ∧ YC s.2.1 ∧ YC s.2.2.1

/-- both fields do not depend on `y` -/
def YCU (u : Fld h w × Fld h w) : Prop := YC u.1 ∧ YC u.2

theorem YCU.comb {u v : Fld h w × Fld h w} (hu : YCU u) (hv : YCU v) (c : ℝ) : YCU (c • u + v) :=
  ⟨(hu.1.smul c).add hv.1, (hu.2.smul c).add hv.2⟩

theorem YCU.add {u v : Fld h w × Fld h w} (hu : YCU u) (hv : YCU v) : YCU (u + v) := ⟨hu.1.add hv.1, hu.2.add hv.2⟩

theorem YCU.smul {u : Fld h w × Fld h w} (hu : YCU u) (c : ℝ) : YCU (c • u) := ⟨hu.1.smul c, hu.2.smul c⟩

theorem YCU.diff {u : Fld h w × Fld h w} (hu : YCU u) (P : Params) : YCU (diffU P u) := ⟨hu.1.hyper P, hu.2.hyper P⟩

theorem prj_gradS_zonal {P : Params} (hz : P.zonal = true) (dx0 dt : ℝ) {s : Sta h w} (hs : YCU (prj s)) {p : Fld h w}
    (hp : YC p) : prj (gradS P dx0 dt p s) = diffU P (prj s) :=
  Prod.ext (rhsN_zonal hz hs.1 hp) (rhsO_zonal hz hs.1 hs.2 hp)

theorem stepS_zonal {P : Params} (hz : P.zonal = true) (dx0 : ℝ) (a : Step) {s : Sta h w} (hs : YCS s) :
    prj (stepS P dx0 a s) = diffStep P a (prj s) ∧ YCS (stepS P dx0 a s) := by
  have h0 : YCU (prj s) := ⟨hs.1, hs.2.1⟩
  suffices h1 : prj (stepS P dx0 a s) = diffStep P a (prj s) ∧ YCU (prj (stepS P dx0 a s)) ∧
      (stepS P dx0 a s).2.2.1 = phiF P.dx (stepS P dx0 a s).2.1 by
    refine ⟨h1.1, h1.2.1.1, h1.2.1.2, ?_⟩
    rw [h1.2.2]
    exact h1.2.1.2.phi _
  cases a with
  | euler dt =>
    have e : prj (stepS P dx0 (.euler dt) s) = dt • diffU P (prj s) + prj s := by
      rw [← prj_gradS_zonal hz dx0 0 h0 hs.2.2]
      rfl
    refine ⟨e, ?_, rfl⟩
    rw [e]
    exact (h0.diff P).comb h0 dt
  | rk4 dt =>
    have e : prj (stepS P dx0 (.rk4 dt) s) = rk4U (diffU P) dt (prj s) ∧ YCU (prj (stepS P dx0 (.rk4 dt) s)) := by
      change prj (rk4S P dx0 dt s) = _ ∧ YCU (prj (rk4S P dx0 dt s))
      unfold rk4S rk4U
      simp only
      have q1 := prj_gradS_zonal hz dx0 0 h0 hs.2.2
      have d1 := h0.diff P
      generalize gradS P dx0 0 s.2.2.1 s = g1 at q1
      have y1 : YCU (prj ((1 / 2 : ℝ) • dt • g1 + s)) := by
        rw [prj_add, prj_smul, prj_smul, q1]
        exact (d1.smul dt).comb h0 _
      have q2 := prj_gradS_zonal hz dx0 (dt / 2) y1 (y1.2.phi P.dx)
      have d2 := y1.diff P
      change prj (gradS P dx0 (dt / 2) (phiF P.dx ((1 / 2 : ℝ) • dt • g1 + s).2.1) ((1 / 2 : ℝ) • dt • g1 + s)) = _ at q2
      generalize gradS P dx0 (dt / 2) (phiF P.dx ((1 / 2 : ℝ) • dt • g1 + s).2.1) ((1 / 2 : ℝ) • dt • g1 + s) = g2 at q2
      have y2 : YCU (prj ((1 / 2 : ℝ) • dt • g2 + s)) := by
        rw [prj_add, prj_smul, prj_smul, q2]
        exact (d2.smul dt).comb h0 _
      have q3 := prj_gradS_zonal hz dx0 (dt / 2) y2 (y2.2.phi P.dx)
      have d3 := y2.diff P
      change prj (gradS P dx0 (dt / 2) (phiF P.dx ((1 / 2 : ℝ) • dt • g2 + s).2.1) ((1 / 2 : ℝ) • dt • g2 + s)) = _ at q3
      generalize gradS P dx0 (dt / 2) (phiF P.dx ((1 / 2 : ℝ) • dt • g2 + s).2.1) ((1 / 2 : ℝ) • dt • g2 + s) = g3 at q3
      have y3 : YCU (prj (dt • g3 + s)) := by
        rw [prj_add, prj_smul, q3]
        exact d3.comb h0 _
      have q4 := prj_gradS_zonal hz dx0 dt y3 (y3.2.phi P.dx)
      have d4 := y3.diff P
      change prj (gradS P dx0 dt (phiF P.dx (dt • g3 + s).2.1) (dt • g3 + s)) = _ at q4
      generalize gradS P dx0 dt (phiF P.dx (dt • g3 + s).2.1) (dt • g3 + s) = g4 at q4
      have e : prj ((1 / 6 : ℝ) • (dt • g4 + ((2 : ℝ) • dt • g3 + ((2 : ℝ) • dt • g2 + dt • g1))) + s)
          = (1 / 6 : ℝ) • (dt • prj g4 + ((2 : ℝ) • dt • prj g3 + ((2 : ℝ) • dt • prj g2 + dt • prj g1))) + prj s := rfl
      change prj ((1 / 6 : ℝ) • (dt • g4 + ((2 : ℝ) • dt • g3 + ((2 : ℝ) • dt • g2 + dt • g1))) + s) = _ ∧
        YCU (prj ((1 / 6 : ℝ) • (dt • g4 + ((2 : ℝ) • dt • g3 + ((2 : ℝ) • dt • g2 + dt • g1))) + s))
      rw [e, q1, q2, q3, q4]
      constructor
      · have e1 : prj ((1 / 2 : ℝ) • dt • g1 + s) = (1 / 2 : ℝ) • dt • diffU P (prj s) + prj s := by
          rw [prj_add, prj_smul, prj_smul, q1]
        rw [e1] at q2 ⊢
        have e2 : prj ((1 / 2 : ℝ) • dt • g2 + s)
            = (1 / 2 : ℝ) • dt • diffU P ((1 / 2 : ℝ) • dt • diffU P (prj s) + prj s) + prj s := by
          rw [prj_add, prj_smul, prj_smul, q2]
        rw [e2] at q3 ⊢
        have e3 : prj (dt • g3 + s) = dt • diffU P ((1 / 2 : ℝ) • dt •
            diffU P ((1 / 2 : ℝ) • dt • diffU P (prj s) + prj s) + prj s) + prj s := by
          rw [prj_add, prj_smul, q3]
        rw [e3]
      · exact ((d4.smul dt).add (((d3.smul dt).smul 2).add (((d2.smul dt).smul 2).add (d1.smul dt)))).comb h0 _
    exact ⟨e.1, e.2, rfl⟩

/-- a history that only diffuses -/
noncomputable def diffHist (P : Params) : List Step → Fld h w × Fld h w → Fld h w × Fld h w
  | [], u => u
  | a :: l, u => diffHist P l (diffStep P a u)

theorem histS_zonal {P : Params} (hz : P.zonal = true) (dx0 : ℝ) (l : List Step) {s : Sta h w} (hs : YCS s) :
    prj (histS P dx0 l s) = diffHist P l (prj s) ∧ YCS (histS P dx0 l s) := by
  induction l generalizing s with
  | nil => exact ⟨rfl, hs⟩
  | cons a l ih =>
    obtain ⟨e1, e2⟩ := stepS_zonal hz dx0 a hs
    obtain ⟨e3, e4⟩ := ih e2
    refine ⟨?_, e4⟩
    change prj (histS P dx0 l (stepS P dx0 a s)) = diffHist P l (diffStep P a (prj s))
    rw [e3, e1]

theorem diffHist_zero {P : Params} (hnu : P.nu = 0) (l : List Step) (u : Fld h w × Fld h w) : diffHist P l u = u := by
  have hd : ∀ u : Fld h w × Fld h w, diffU P u = 0 := fun u => by
    refine Prod.ext ?_ ?_ <;>
    · funext i j
      change hyper P _ i j = 0
      unfold hyper
      rw [hnu, mul_zero, zero_mul]
  induction l with
  | nil => rfl
  | cons a l ih =>
    have : diffStep P a u = u := by
      cases a with
      | euler dt => change dt • diffU P u + u = u; rw [hd, smul_zero, zero_add]
      | rk4 dt => change rk4U (diffU P) dt u = u; unfold rk4U; simp only [hd, smul_zero, zero_add]
    change diffHist P l (diffStep P a u) = u
    rw [this, ih]

theorem diffHist_congr {P P' : Params} (h1 : P.dx = P'.dx) (h2 : P.N = P'.N) (h3 : P.nu = P'.nu) (l : List Step)
    (u : Fld h w × Fld h w) : diffHist P l u = diffHist P' l u := by
  have hd : (diffU P : Fld h w × Fld h w → _) = diffU P' := by
    funext u
    unfold diffU hyper
    rw [h1, h2, h3]
  induction l generalizing u with
  | nil => rfl
  | cons a l ih =>
    have : diffStep P a u = diffStep P' a u := by
      cases a with
      | euler dt => unfold diffStep; rw [hd]
      | rk4 dt => unfold diffStep; rw [hd]
    change diffHist P l (diffStep P a u) = diffHist P' l (diffStep P' a u)
    rw [this, ih]

/-! ### sums over `y` -/

theorem ysum_couple (p n : Fld h w) (j : ZMod w) : ∑ i, couple true p n i j = 0 := by
  unfold couple
  simp only [if_true]
  rw [Finset.sum_sub_distrib, sum_nonZonal, sum_nonZonal, sub_self]

theorem ysum_gradY (dx : ℝ) (p : Fld h w) (j : ZMod w) : ∑ i, gradY dx p i j = 0 := by
  unfold gradY
  rw [← Finset.sum_div, Finset.sum_sub_distrib]
  have e1 : ∑ i, p (i + 1) j = ∑ i, p i j := Fintype.sum_equiv (Equiv.addRight 1) _ _ fun _ => rfl
  have e2 : ∑ i, p (i - 1) j = ∑ i, p i j := Fintype.sum_equiv (Equiv.subRight 1) _ _ fun _ => rfl
  rw [e1, e2, sub_self, zero_div]

/-- what the coupling contributes to the zonal mean -/
theorem ysum_couple' (z : Bool) (p n : Fld h w) (j : ZMod w) :
    ∑ i, couple z p n i j = if z then 0 else (∑ i, p i j) - ∑ i, n i j := by
  cases z
  · unfold couple
    simp only [Bool.false_eq_true, if_false]
    rw [Finset.sum_sub_distrib]
  · rw [if_pos rfl, ysum_couple]

theorem ysum_rhsN (P : Params) (n p : Fld h w) (j : ZMod w) :
    ∑ i, rhsN P n p i j = P.c1 * (if P.zonal then 0 else (∑ i, p i j) - ∑ i, n i j)
      - P.pb * (∑ i, jac P.dx p n i j) + ∑ i, hyper P n i j := by
  unfold rhsN
  rw [Finset.sum_add_distrib, Finset.sum_sub_distrib, Finset.sum_sub_distrib, ← Finset.mul_sum, ← Finset.mul_sum,
    ← Finset.mul_sum, ysum_couple', ysum_gradY]
  ring

theorem ysum_rhsO (P : Params) (n o p : Fld h w) (j : ZMod w) :
    ∑ i, rhsO P n o p i j = P.c1 * (if P.zonal then 0 else (∑ i, p i j) - ∑ i, n i j)
      - P.pb * (∑ i, jac P.dx p o i j) + ∑ i, hyper P o i j := by
  unfold rhsO
  rw [Finset.sum_add_distrib, Finset.sum_sub_distrib, ← Finset.mul_sum, ← Finset.mul_sum, ysum_couple']

end Verif
