import Verif.Lemmas.PhiField
import Verif.Lemmas.HWStep

/-!
# Field-level facts about the time step: means, budgets, symmetries
-/

set_option linter.unusedSectionVars false

namespace Verif

open Arr Spec

variable {h w : ℕ} [NeZero h] [NeZero w]

/-! ### means -/

theorem avg_add (f g : Fld h w) : avg (fun i j => f i j + g i j) = avg f + avg g := by
  unfold avg; rw [S_add, add_div]
theorem avg_sub (f g : Fld h w) : avg (fun i j => f i j - g i j) = avg f - avg g := by
  unfold avg; rw [S_sub, sub_div]
theorem avg_neg (f : Fld h w) : avg (fun i j => -f i j) = -avg f := by
  unfold avg; rw [S_neg, neg_div]
theorem avg_smul (c : ℝ) (f : Fld h w) : avg (fun i j => c * f i j) = c * avg f := by
  unfold avg; rw [S_mul_left, mul_div_assoc]
theorem avg_congr {f g : Fld h w} (e : ∀ i j, f i j = g i j) : avg f = avg g := by
  unfold avg; rw [S_congr e]
theorem avg_add' (f g : Fld h w) : avg (f + g) = avg f + avg g := avg_add f g
theorem avg_smul' (c : ℝ) (f : Fld h w) : avg (c • f) = c * avg f := avg_smul c f
theorem avg_of_S {f : Fld h w} (e : S f = 0) : avg f = 0 := by unfold avg; rw [e, zero_div]

theorem sum_nonZonal (f : Fld h w) (j : ZMod w) : ∑ i, nonZonal f i j = 0 := by
  unfold nonZonal
  rw [Finset.sum_sub_distrib, Finset.sum_const, Finset.card_univ, ZMod.card, nsmul_eq_mul,
    mul_div_cancel₀ _ (Nat.cast_ne_zero.mpr (NeZero.ne h)), sub_self]

theorem S_nonZonal (f : Fld h w) : S (nonZonal f) = 0 := by
  unfold S
  rw [Finset.sum_comm]
  exact Finset.sum_eq_zero fun j _ => sum_nonZonal f j

/-- the non-zonal part is an orthogonal projection -/
theorem S_nonZonal_mul (f g : Fld h w) :
    S (fun i j => f i j * nonZonal g i j) = S fun i j => nonZonal f i j * nonZonal g i j := by
  rw [← sub_eq_zero, ← S_sub]
  unfold S
  rw [Finset.sum_comm]
  refine Finset.sum_eq_zero fun j _ => ?_
  have : ∀ i, f i j * nonZonal g i j - nonZonal f i j * nonZonal g i j
      = (∑ i', f i' j) / (h : ℝ) * nonZonal g i j := by
    intro i; simp only [nonZonal]; ring
  rw [Finset.sum_congr rfl fun i _ => this i, ← Finset.mul_sum, sum_nonZonal, mul_zero]

theorem avg_couple (z : Bool) (p n : Fld h w) :
    avg (couple z p n) = if z then 0 else avg p - avg n := by
  unfold couple
  cases z
  · simp only [Bool.false_eq_true, if_false]; exact avg_sub p n
  · simp only [if_true]
    rw [avg_sub, avg_of_S (S_nonZonal p), avg_of_S (S_nonZonal n), sub_self]

theorem avg_hyper (P : Params) (hN : 1 ≤ P.N ∨ P.nu = 0) (f : Fld h w) : avg (hyper P f) = 0 := by
  unfold hyper
  rw [avg_smul]
  rcases hN with hN | hN
  · obtain ⟨m, hm⟩ := Nat.exists_eq_add_of_le' hN
    rw [hm, avg_of_S (S_lap_iterate P.dx f m), mul_zero]
  · rw [hN, mul_zero, zero_mul]

/-- effective coupling of the mean fields -/
noncomputable def c1m (P : Params) : ℝ := if P.zonal then 0 else P.c1

theorem avg_rhsN (P : Params) (hN : 1 ≤ P.N ∨ P.nu = 0) (n p : Fld h w) :
    avg (rhsN P n p) = c1m P * (avg p - avg n) := by
  unfold rhsN
  rw [avg_add, avg_sub, avg_sub, avg_smul, avg_smul, avg_smul, avg_hyper P hN, avg_of_S (S_jac _ _ _),
    avg_of_S (S_gradY _ _), avg_couple]
  unfold c1m
  cases P.zonal <;> simp

theorem avg_rhsO (P : Params) (hN : 1 ≤ P.N ∨ P.nu = 0) (n o p : Fld h w) :
    avg (rhsO P n o p) = c1m P * (avg p - avg n) := by
  unfold rhsO
  rw [avg_add, avg_sub, avg_smul, avg_smul, avg_hyper P hN, avg_of_S (S_jac _ _ _), avg_couple]
  unfold c1m
  cases P.zonal <;> simp

/-! ### budgets -/

theorem avg_hyper_nonpos (P : Params) (hnu : 0 ≤ P.nu) (f : Fld h w) :
    avg (fun i j => f i j * hyper P f i j) ≤ 0 := by
  have : avg (fun i j => f i j * hyper P f i j)
      = P.nu * ((-1) ^ (P.N + 1) * S (fun i j => f i j * (lap P.dx)^[P.N] f i j)) / ((h : ℝ) * w) := by
    unfold avg
    rw [← S_mul_left, ← S_mul_left]
    congr 1
    exact S_congr fun i j => by unfold hyper; ring
  rw [this]
  exact div_nonpos_of_nonpos_of_nonneg (mul_nonpos_of_nonneg_of_nonpos hnu (S_hyper_nonpos _ _ _))
    (by positivity)

/-- the fields entering the coupling term -/
noncomputable def cpl (z : Bool) (f : Fld h w) : Fld h w := if z then nonZonal f else f

theorem couple_eq (z : Bool) (p n : Fld h w) (i : ZMod h) (j : ZMod w) :
    couple z p n i j = cpl z p i j - cpl z n i j := by
  unfold couple cpl; cases z <;> rfl

theorem S_mul_couple (z : Bool) (p n : Fld h w) :
    S (fun i j => (n i j - p i j) * couple z p n i j) = -S fun i j => (cpl z n i j - cpl z p i j) ^ 2 := by
  rw [← S_neg]
  cases z
  · exact S_congr fun i j => by simp only [couple, cpl, Bool.false_eq_true, if_false]; ring
  · have e : ∀ i j, (n i j - p i j) * couple true p n i j
        = (p i j * nonZonal n i j + n i j * nonZonal p i j) - (p i j * nonZonal p i j + n i j * nonZonal n i j) := by
      intro i j; simp only [couple, if_true]; ring
    rw [S_congr e, S_sub, S_add, S_add, S_nonZonal_mul p n, S_nonZonal_mul n p, S_nonZonal_mul p p,
      S_nonZonal_mul n n, ← S_add, ← S_add, ← S_sub]
    exact S_congr fun i j => by simp only [cpl, if_true]; ring

/-- energy budget -/
theorem energy_budget (P : Params) (n o p : Fld h w) :
    avg (fun i j => n i j * rhsN P n p i j - p i j * rhsO P n o p i j)
      = P.kappa * gamN P.dx n p - gamC P.c1 (cpl P.zonal n) (cpl P.zonal p)
        + avg (fun i j => n i j * hyper P n i j - p i j * hyper P o i j) := by
  have e : ∀ i j, n i j * rhsN P n p i j - p i j * rhsO P n o p i j
      = (P.c1 * ((n i j - p i j) * couple P.zonal p n i j) - P.pb * (n i j * jac P.dx p n i j)
        + P.pb * (p i j * jac P.dx p o i j) - P.kappa * (n i j * gradY P.dx p i j))
        + (n i j * hyper P n i j - p i j * hyper P o i j) := by
    intro i j; simp only [rhsN, rhsO]; ring
  rw [avg_congr e, avg_add, avg_sub, avg_add, avg_sub, avg_smul, avg_smul, avg_smul, avg_smul,
    avg_of_S (S_jac_right _ _ _), avg_of_S (S_jac_left _ _ _)]
  have : avg (fun i j => (n i j - p i j) * couple P.zonal p n i j)
      = -avg fun i j => (cpl P.zonal n i j - cpl P.zonal p i j) ^ 2 := by
    unfold avg; rw [S_mul_couple, neg_div]
  rw [this]
  unfold gamN gamC
  ring

theorem gradY_phiF (dx : ℝ) (dx' : ℝ) (o : Fld h w) : gradY dx' (phiF dx o) = phiF dx (gradY dx' o) := by
  have e : ∀ f : Fld h w, gradY dx' f = fun i j => (1 / (2 * dx')) * shift (-1) 0 f i j
      + (-(1 / (2 * dx'))) * shift 1 0 f i j + 0 := by
    intro f; funext i j
    simp only [gradY, shift, sub_neg_eq_add, sub_zero, Nat.cast_ofNat]; ring
  rw [e o, phiF_lin, e, phiF_shift, phiF_shift]
  funext i j; ring

/-- vorticity carries no net flux of its own potential -/
theorem S_mul_gradY_phiF (dx dx' : ℝ) (o : Fld h w) : S (fun i j => o i j * gradY dx' (phiF dx o) i j) = 0 := by
  have h1 := S_gradY_skew dx' o (phiF dx o)
  rw [← phiF_symm dx (gradY dx' o) o |>.symm] at h1
  have h2 : S (fun i j => o i j * gradY dx' (phiF dx o) i j)
      = S fun i j => phiF dx (gradY dx' o) i j * o i j := by
    rw [gradY_phiF]; exact S_congr fun i j => mul_comm _ _
  have h3 := phiF_symm dx (gradY dx' o) o
  linarith

/-- enstrophy budget -/
theorem enstrophy_budget (P : Params) (n o p : Fld h w) (hp : p = phiF P.dx o) :
    avg (fun i j => (n i j - o i j) * (rhsN P n p i j - rhsO P n o p i j))
      = P.kappa * gamN P.dx n p + avg (fun i j => (n i j - o i j) * (hyper P n i j - hyper P o i j)) := by
  have hz : avg (fun i j => o i j * gradY P.dx p i j) = 0 := by
    rw [hp]; exact avg_of_S (S_mul_gradY_phiF _ _ _)
  have hj := S_jac_right P.dx p (fun i j => 1 * n i j + (-1) * o i j)
  simp only [jac_lin_right] at hj
  have e : ∀ i j, (n i j - o i j) * (rhsN P n p i j - rhsO P n o p i j)
      = (P.kappa * (o i j * gradY P.dx p i j) - P.kappa * (n i j * gradY P.dx p i j)
        - P.pb * ((1 * n i j + -1 * o i j) * (1 * jac P.dx p n i j + -1 * jac P.dx p o i j)))
        + (n i j - o i j) * (hyper P n i j - hyper P o i j) := by
    intro i j; simp only [rhsN, rhsO]; ring
  rw [avg_congr e, avg_add, avg_sub, avg_sub, avg_smul, avg_smul, avg_smul, hz, avg_of_S hj]
  unfold gamN
  ring

/-! ### symmetries -/

variable {h' w' : ℕ} [NeZero h'] [NeZero w']

/-- an additive map of fields, possibly to another grid, that commutes with every operation of the model -/
structure Symm (T : Fld h w → Fld h' w') : Prop where
  add : ∀ f g : Fld h w, T (f + g) = T f + T g
  smul : ∀ (c : ℝ) (f : Fld h w), T (c • f) = c • T f
  lap : ∀ dx f, lap dx (T f) = T (lap dx f)
  gradY : ∀ dx f, gradY dx (T f) = T (gradY dx f)
  jac : ∀ dx f g, jac dx (T f) (T g) = T (jac dx f g)
  nonZonal : ∀ f, nonZonal (T f) = T (nonZonal f)
  phiF : ∀ dx f, phiF dx (T f) = T (phiF dx f)
  avg : ∀ f g, avg (fun i j => T f i j * T g i j) = avg (fun i j => f i j * g i j)

namespace Symm

variable {T : Fld h w → Fld h' w'} (hT : Symm T)
include hT

theorem zero : T 0 = 0 := by
  have := hT.smul 0 0
  simpa using this

theorem sub (f g : Fld h w) : T (f - g) = T f - T g := by
  have : f - g = f + (-1 : ℝ) • g := by module
  rw [this, hT.add, hT.smul]; module

theorem lap_iterate (dx : ℝ) (N : ℕ) (f : Fld h w) : (Spec.lap dx)^[N] (T f) = T ((Spec.lap dx)^[N] f) := by
  induction N generalizing f with
  | zero => rfl
  | succ N ih => rw [Function.iterate_succ_apply, hT.lap, ih, Function.iterate_succ_apply]

theorem hyper (P : Params) (f : Fld h w) : Spec.hyper P (T f) = T (Spec.hyper P f) := by
  have e : ∀ {h w : ℕ} (g : Fld h w), Spec.hyper P g = ((-1) ^ (P.N + 1) * P.nu) • ((Spec.lap P.dx)^[P.N] g) :=
    fun g => rfl
  rw [e, e, hT.smul, hT.lap_iterate]

theorem couple (z : Bool) (p n : Fld h w) : Spec.couple z (T p) (T n) = T (Spec.couple z p n) := by
  cases z
  · exact (hT.sub p n).symm
  · change Spec.nonZonal (T p) - Spec.nonZonal (T n) = _
    rw [hT.nonZonal, hT.nonZonal, ← hT.sub]; rfl

theorem rhsN (P : Params) (n p : Fld h w) : Spec.rhsN P (T n) (T p) = T (Spec.rhsN P n p) := by
  have e : ∀ {h w : ℕ} [NeZero h] [NeZero w] (n p : Fld h w), Spec.rhsN P n p = P.c1 • Spec.couple P.zonal p n - P.pb • Spec.jac P.dx p n
      - P.kappa • Spec.gradY P.dx p + Spec.hyper P n := fun _ _ => rfl
  rw [e, e, hT.add, hT.sub, hT.sub, hT.smul, hT.smul, hT.smul, hT.hyper, hT.gradY, hT.jac, hT.couple]

theorem rhsO (P : Params) (n o p : Fld h w) : Spec.rhsO P (T n) (T o) (T p) = T (Spec.rhsO P n o p) := by
  have e : ∀ {h w : ℕ} [NeZero h] [NeZero w] (n o p : Fld h w), Spec.rhsO P n o p = P.c1 • Spec.couple P.zonal p n - P.pb • Spec.jac P.dx p o
      + Spec.hyper P o := fun _ _ _ => rfl
  rw [e, e, hT.add, hT.sub, hT.smul, hT.smul, hT.hyper, hT.jac, hT.couple]

theorem gamN (dx : ℝ) (n p : Fld h w) : Verif.gamN dx (T n) (T p) = Verif.gamN dx n p := by
  unfold Verif.gamN; rw [hT.gradY, hT.avg]

theorem gamC (c1 : ℝ) (n p : Fld h w) : Verif.gamC c1 (T n) (T p) = Verif.gamC c1 n p := by
  unfold Verif.gamC
  have e : ∀ {h w : ℕ} [NeZero h] [NeZero w] (n p : Fld h w), (fun i j => (n i j - p i j) ^ 2) = fun i j => (n - p) i j * (n - p) i j := by
    intro h w _ _ n p; funext i j; simp only [Pi.sub_apply]; ring
  rw [e, e, ← hT.sub, hT.avg]

theorem repE (P : Params) (dx0 : ℝ) (n p : Fld h w) : Verif.repE P dx0 (T n) (T p) = Verif.repE P dx0 n p := by
  unfold Verif.repE
  rw [hT.gamN, hT.gamC, avg_sub, avg_sub, hT.hyper, hT.hyper, hT.avg, hT.avg]

theorem repU (P : Params) (dx0 : ℝ) (n o p : Fld h w) :
    Verif.repU P dx0 (T n) (T o) (T p) = Verif.repU P dx0 n o p := by
  unfold Verif.repU
  have e : ∀ {h w : ℕ} [NeZero h] [NeZero w] (n o p : Fld h w), (fun i j => (n i j - o i j) * (Spec.hyper P n i j - Spec.hyper P p i j))
      = fun i j => (n - o) i j * (Spec.hyper P n - Spec.hyper P p) i j := fun _ _ _ => rfl
  rw [hT.gamN, e, e, hT.hyper, hT.hyper, ← hT.sub, ← hT.sub, hT.avg]

end Symm

/-- apply a map to the three fields of a state -/
def onS (T : Fld h w → Fld h' w') (s : Sta h w) : Sta h' w' := (T s.1, T s.2.1, T s.2.2.1, s.2.2.2)

theorem Symm.onS_add {T : Fld h w → Fld h' w'} (hT : Symm T) (s t : Sta h w) :
    onS T s + onS T t = onS T (s + t) := by
  simp only [onS, Prod.mk_add_mk, Prod.fst_add, Prod.snd_add, hT.add]

theorem Symm.onS_smul {T : Fld h w → Fld h' w'} (hT : Symm T) (c : ℝ) (s : Sta h w) :
    c • onS T s = onS T (c • s) := by
  simp only [onS, Prod.smul_mk, Prod.smul_fst, Prod.smul_snd, hT.smul]

theorem Symm.gradS {T : Fld h w → Fld h' w'} (hT : Symm T) (P : Params) (dx0 dt : ℝ) (p : Fld h w) (s : Sta h w) :
    Verif.gradS P dx0 dt (T p) (onS T s) = onS T (Verif.gradS P dx0 dt p s) := by
  simp only [Verif.gradS, onS, hT.rhsN, hT.rhsO, hT.repE, hT.repU, hT.zero]

theorem Symm.rk4S {T : Fld h w → Fld h' w'} (hT : Symm T) (P : Params) (dx0 dt : ℝ) (s : Sta h w) :
    Verif.rk4S P dx0 dt (onS T s) = onS T (Verif.rk4S P dx0 dt s) := by
  have e1 : ∀ s : Sta h w, (onS T s).2.1 = T s.2.1 := fun _ => rfl
  have e2 : (onS T s).2.2.1 = T s.2.2.1 := rfl
  unfold Verif.rk4S
  simp only [e2, hT.gradS, hT.onS_smul, hT.onS_add, e1, hT.phiF]
  rfl

theorem Symm.eulerS {T : Fld h w → Fld h' w'} (hT : Symm T) (P : Params) (dx0 dt : ℝ) (p : Fld h w)
    (s : Sta h w) : Verif.eulerS P dx0 dt (T p) (onS T s) = onS T (Verif.eulerS P dx0 dt p s) := by
  have e1 : ∀ s : Sta h w, (onS T s).2.1 = T s.2.1 := fun _ => rfl
  unfold Verif.eulerS
  simp only [hT.gradS, hT.onS_smul, hT.onS_add, e1, hT.phiF]
  rfl

theorem nonZonal_shift (f : Fld h w) (s : ZMod h) (t : ZMod w) :
    nonZonal (shift s t f) = shift s t (nonZonal f) := by
  funext i j
  simp only [nonZonal, shift]
  congr 2
  exact Equiv.sum_comp (Equiv.subRight s) fun i => f i (j - t)

theorem avg_shift (f : Fld h w) (s : ZMod h) (t : ZMod w) : avg (shift s t f) = avg f := by
  unfold avg
  congr 1
  have := S_shift f (-s) (-t)
  simp only [← sub_eq_add_neg] at this
  exact this

theorem symm_shift (s : ZMod h) (t : ZMod w) : Symm (shift s t : Fld h w → Fld h w) where
  add _ _ := rfl
  smul _ _ := rfl
  lap dx f := lap_shift dx f s t
  gradY dx f := gradY_shift dx f s t
  jac dx f g := jac_shift dx f g s t
  nonZonal f := nonZonal_shift f s t
  phiF dx f := phiF_shift dx f s t
  avg f g := avg_shift (fun i j => f i j * g i j) s t

/-- the negated mirror image in x -/
def mirror (f : Fld h w) : Fld h w := fun i j => -f i (-j)

theorem S_reflect {K : Type} [AddCommMonoid K] (f : ZMod h → ZMod w → K) : S (fun i j => f i (-j)) = S f := by
  unfold S
  exact Finset.sum_congr rfl fun i _ => Equiv.sum_comp (Equiv.neg (ZMod w)) fun j => f i j

theorem D_reflect (f : ZMod h → ZMod w → ℂ) (k : ZMod h) (l : ZMod w) :
    D (fun i j => f i (-j)) k l = D f k (-l) := by
  unfold D
  rw [← S_reflect]
  exact S_congr fun i j => by
    beta_reduce; rw [neg_neg]; congr 2; rw [mul_neg, neg_mul]

theorem sig_reflect (m : ℕ) (k : ZMod h) (l : ZMod w) : sig m k (-l) = sig m k l := by
  unfold sig lamb
  simp [kap_neg_sq]

theorem symm_mirror : Symm (mirror : Fld h w → Fld h w) where
  add f g := by funext i j; simp only [mirror, Pi.add_apply]; ring
  smul c f := by funext i j; simp only [mirror, Pi.smul_apply, smul_eq_mul]; ring
  lap dx f := by
    funext i j
    have e1 : -(j - 1) = -j + 1 := by ring
    have e2 : -(j + 1) = -j - 1 := by ring
    simp only [mirror, lap, e1, e2]; ring
  gradY dx f := by funext i j; simp only [mirror, gradY]; ring
  jac dx f g := by
    funext i j
    have e1 : -(j - 1) = -j + 1 := by ring
    have e2 : -(j + 1) = -j - 1 := by ring
    simp only [mirror, jac, e1, e2]; ring
  nonZonal f := by
    funext i j
    simp only [mirror, nonZonal, Finset.sum_neg_distrib]; ring
  phiF dx f := by
    have e : ∀ g : Fld h w, cx (mirror g) = fun i j => (-1 : ℂ) * (fun i j => cx g i (-j)) i j := by
      intro g; funext i j
      change ((-g i (-j) : ℝ) : ℂ) = -1 * ((g i (-j) : ℝ) : ℂ)
      push_cast; ring
    refine mult_ext ?_
    funext k l
    rw [D_phiF, e, e, D_smul, D_smul]
    simp only [D_reflect, D_phiF, sig_reflect]
    ring
  avg f g := by
    unfold avg
    congr 1
    rw [← S_reflect fun i j => f i j * g i j]
    exact S_congr fun i j => by simp only [mirror]; ring

end Verif
