import Verif.Lemmas.Modes

/-!
# States whose brackets vanish: single waves, and fields varying along one axis only
-/

set_option linter.unusedSectionVars false

namespace Verif

open Arr Complex Spec Matrix
open scoped ComplexConjugate

variable {h w : ℕ} [NeZero h] [NeZero w]

/-- the wave of mode `(k, l)` -/
noncomputable def wv (k : ZMod h) (l : ZMod w) : ZMod h → ZMod w → ℂ := fun i j => ec (k * i) * ec (l * j)

theorem norm_ec {n : ℕ} [NeZero n] (k : ZMod n) : (ec k).re ^ 2 + (ec k).im ^ 2 = 1 := by
  have h1 : ec k * conj (ec k) = 1 := by rw [ec_conj, ← ec_add, add_neg_cancel, ec_zero]
  rw [mul_conj] at h1
  have h2 : normSq (ec k) = 1 := by exact_mod_cast h1
  rw [normSq_apply] at h2
  nlinarith

theorem wv_shift (k : ZMod h) (l : ZMod w) (s : ZMod h) (t : ZMod w) (i : ZMod h) (j : ZMod w) :
    wv k l (i - s) (j - t) = (ec (-(k * s)) * ec (-(l * t))) * wv k l i j := by
  unfold wv
  rw [mul_sub, mul_sub, sub_eq_add_neg, sub_eq_add_neg, ec_add, ec_add]; ring

theorem const_of_shift {f : Fld h w} (H : ∀ s t, shift s t f = f) (i : ZMod h) (j : ZMod w) : f i j = f 0 0 := by
  have := congrFun (congrFun (H i j) i) j
  simp only [shift, sub_self] at this
  exact this.symm

theorem jac_wave (dx : ℝ) (k : ZMod h) (l : ZMod w) :
    jac dx (fun i j => (wv k l i j).re) (fun i j => (wv k l i j).im) = 0 := by
  set u : Fld h w := fun i j => (wv k l i j).re with hu
  set v : Fld h w := fun i j => (wv k l i j).im with hv
  have hs : ∀ s t, shift s t (jac dx u v) = jac dx u v := by
    intro s t
    rw [← jac_shift]
    set d : ℂ := ec (-(k * s)) * ec (-(l * t)) with hd
    have e1 : shift s t u = d.re • u + (-d.im) • v := by
      funext i j
      simp only [shift, hu, hv, Pi.add_apply, Pi.smul_apply, smul_eq_mul]
      rw [wv_shift, mul_re]; ring
    have e2 : shift s t v = d.im • u + d.re • v := by
      funext i j
      simp only [shift, hu, hv, Pi.add_apply, Pi.smul_apply, smul_eq_mul]
      rw [wv_shift, mul_im]; ring
    have e3 : d.re ^ 2 + d.im ^ 2 = 1 := by
      have h1 := norm_ec (-(k * s))
      have h2 := norm_ec (-(l * t))
      rw [hd, mul_re, mul_im]
      linear_combination (ec (-(l * t))).re ^ 2 * h1 + (ec (-(l * t))).im ^ 2 * h1 + h2
    have e4 : jac dx v u = - jac dx u v := by funext i j; exact jac_antisymm dx v u i j
    have e5 : ∀ f : Fld h w, jac dx f f = 0 := fun f => by funext i j; exact jac_self dx f i j
    rw [e1, e2, jac_add_left, jac_add_right, jac_add_right, jac_smul_left, jac_smul_left, jac_smul_left, jac_smul_left,
      jac_smul_right, jac_smul_right, jac_smul_right, jac_smul_right, e4, e5, e5]
    have : d.re • d.re • jac dx u v + (-d.im) • d.im • -jac dx u v = (d.re ^ 2 + d.im ^ 2) • jac dx u v := by module
    simp only [smul_zero, zero_add, add_zero]
    rw [this, e3, one_smul]
  have hS := S_jac dx u v
  have hc : ∀ i j, jac dx u v i j = jac dx u v 0 0 := const_of_shift hs
  have hS2 : S (jac dx u v) = (h : ℝ) * w * jac dx u v 0 0 := by
    unfold S
    rw [Finset.sum_congr rfl fun i _ => Finset.sum_congr rfl fun j _ => hc i j]
    simp [Finset.card_univ, ZMod.card, mul_assoc]
  rw [hS2] at hS
  have h0 : jac dx u v 0 0 = 0 := (mul_eq_zero.1 hS).resolve_left cardR_pos.ne'
  funext i j
  rw [hc, h0]; rfl

/-- a wave on a constant background -/
noncomputable def oneWave (k : ZMod h) (l : ZMod w) (a : ℝ) (z : ℂ) : Fld h w := fun i j => a + (z * wv k l i j).re

theorem jac_oneWave (dx : ℝ) (k : ZMod h) (l : ZMod w) (a b : ℝ) (z y : ℂ) :
    jac dx (oneWave k l a z) (oneWave k l b y) = 0 := by
  set u : Fld h w := fun i j => (wv k l i j).re with hu
  set v : Fld h w := fun i j => (wv k l i j).im with hv
  have e : ∀ (a : ℝ) (z : ℂ), oneWave k l a z = (fun _ _ => a) + (z.re • u + (-z.im) • v) := by
    intro a z
    funext i j
    simp only [oneWave, hu, hv, Pi.add_apply, Pi.smul_apply, smul_eq_mul, mul_re]
    ring
  have c1 : ∀ (a : ℝ) (f : Fld h w), jac dx (fun _ _ => a) f = 0 := fun a f => by
    funext i j; exact jac_const_left dx a f i j
  have c2 : ∀ (a : ℝ) (f : Fld h w), jac dx f (fun _ _ => a) = 0 := fun a f => by
    funext i j; rw [jac_antisymm, jac_const_left]; simp
  have e4 : jac dx v u = 0 := by
    have : jac dx v u = - jac dx u v := by funext i j; exact jac_antisymm dx v u i j
    rw [this, jac_wave, neg_zero]
  have e5 : ∀ f : Fld h w, jac dx f f = 0 := fun f => by funext i j; exact jac_self dx f i j
  rw [e, e, jac_add_left, c1, zero_add, jac_add_right, c2, zero_add, jac_add_left, jac_add_right, jac_add_right,
    jac_smul_left, jac_smul_left, jac_smul_left, jac_smul_left,
    jac_smul_right, jac_smul_right, jac_smul_right, jac_smul_right, e4, e5, e5, jac_wave]
  simp

/-! ### supports in Fourier space -/

/-- the modes of a field lie in `Λ` -/
def Supp (Λ : Set (ZMod h × ZMod w)) (f : Fld h w) : Prop := ∀ k l, (k, l) ∉ Λ → D (cx f) k l = 0

theorem D_wv {k p : ZMod h} {l q : ZMod w} (hne : (p, q) ≠ (k, l)) : D (wv k l) p q = 0 := by
  have key : ∀ s t, (ec (-(p * s)) * ec (-(q * t)) - ec (-(k * s)) * ec (-(l * t))) * D (wv k l) p q = 0 := by
    intro s t
    have h1 := D_shift (wv k l) s t p q
    have h2 : shift s t (wv k l) = fun i j => (ec (-(k * s)) * ec (-(l * t))) * wv k l i j := by
      funext i j; exact wv_shift k l s t i j
    rw [h2, D_smul] at h1
    linear_combination -h1
  by_contra hD
  apply hne
  have cancel : ∀ {n : ℕ} [NeZero n] {x y : ZMod n}, ec (-x) = ec (-y) → x = y := by
    intro n _ x y hxy
    have := ec_inj (k := -x + y) (by rw [ec_add, hxy, ← ec_add, neg_add_cancel, ec_zero])
    linear_combination -this
  have k1 := (mul_eq_zero.1 (key 1 0)).resolve_right hD
  have k2 := (mul_eq_zero.1 (key 0 1)).resolve_right hD
  simp only [mul_one, mul_zero, neg_zero, ec_zero, one_mul] at k1 k2
  rw [cancel (sub_eq_zero.1 k1), cancel (sub_eq_zero.1 k2)]

theorem conj_wv (k : ZMod h) (l : ZMod w) (i : ZMod h) (j : ZMod w) : conj (wv k l i j) = wv (-k) (-l) i j := by
  unfold wv; rw [map_mul, ec_conj, ec_conj, neg_mul, neg_mul]

theorem wv_zero (i : ZMod h) (j : ZMod w) : wv 0 0 i j = 1 := by
  unfold wv; rw [zero_mul, zero_mul, ec_zero, ec_zero, one_mul]

/-- modes of a wave on a constant background -/
def waveModes (k : ZMod h) (l : ZMod w) : Set (ZMod h × ZMod w) := {p | p = (0, 0) ∨ p = (k, l) ∨ p = (-k, -l)}

theorem supp_oneWave (k : ZMod h) (l : ZMod w) (a : ℝ) (z : ℂ) : Supp (waveModes k l) (oneWave k l a z) := by
  intro p q hpq
  simp only [waveModes, Set.mem_ofPred_eq, not_or] at hpq
  have e : cx (oneWave k l a z) = fun i j => (a : ℂ) * wv 0 0 i j + (z / 2 * wv k l i j + conj z / 2 * wv (-k) (-l) i j) := by
    funext i j
    rw [← conj_wv, wv_zero]
    change ((a + (z * wv k l i j).re : ℝ) : ℂ) = _
    have := add_conj (z * wv k l i j)
    rw [map_mul] at this
    push_cast at this ⊢
    linear_combination -(1 / 2 : ℂ) * this
  rw [e, D_add, D_add, D_smul, D_smul, D_smul]
  beta_reduce
  rw [D_wv hpq.1, D_wv hpq.2.1, D_wv hpq.2.2]; ring

theorem oneWave_of_supp {k : ZMod h} {l : ZMod w} {f : Fld h w} (hf : Supp (waveModes k l) f) :
    ∃ a z, f = oneWave k l a z := by
  classical
  set T : Finset (ZMod h × ZMod w) := {(0, 0), (k, l), (-k, -l)} with hT
  have h1 : ∀ i j, cx f i j = (∑ p ∈ T, D (cx f) p.1 p.2 * wv p.1 p.2 i j) / ((h : ℂ) * w) := by
    intro i j
    conv_lhs => rw [← ID_D (cx f)]
    unfold ID
    congr 1
    rw [S, ← Fintype.sum_prod_type' (f := fun p q => D (cx f) p q * (ec (i * p) * ec (j * q)))]
    have : ∀ p : ZMod h × ZMod w, D (cx f) p.1 p.2 * (ec (i * p.1) * ec (j * p.2)) = D (cx f) p.1 p.2 * wv p.1 p.2 i j := by
      intro p; unfold wv; rw [mul_comm i, mul_comm j]
    simp only [this]
    symm
    refine Finset.sum_subset (Finset.subset_univ _) fun p _ hp => ?_
    rw [hf p.1 p.2, zero_mul]
    simp only [hT, Finset.mem_insert, Finset.mem_singleton] at hp
    exact hp
  have h2 : ∃ a b c : ℂ, ∀ i j, ∑ p ∈ T, D (cx f) p.1 p.2 * wv p.1 p.2 i j
      = a + b * wv k l i j + c * conj (wv k l i j) := by
    have : ∀ T' : Finset (ZMod h × ZMod w), T' ⊆ T → ∃ a b c : ℂ, ∀ i j,
        ∑ p ∈ T', D (cx f) p.1 p.2 * wv p.1 p.2 i j = a + b * wv k l i j + c * conj (wv k l i j) := by
      intro T'
      induction T' using Finset.induction_on with
      | empty => exact fun _ => ⟨0, 0, 0, by simp⟩
      | insert p T' hp ih =>
        intro hs
        obtain ⟨a, b, c, H⟩ := ih fun x hx => hs (Finset.mem_insert_of_mem hx)
        have hpT := hs (Finset.mem_insert_self p T')
        simp only [hT, Finset.mem_insert, Finset.mem_singleton] at hpT
        rcases hpT with rfl | rfl | rfl
        · refine ⟨a + D (cx f) 0 0, b, c, fun i j => ?_⟩
          rw [Finset.sum_insert hp, H, wv_zero]; ring
        · refine ⟨a, b + D (cx f) k l, c, fun i j => ?_⟩
          rw [Finset.sum_insert hp, H]; ring
        · refine ⟨a, b, c + D (cx f) (-k) (-l), fun i j => ?_⟩
          rw [Finset.sum_insert hp, H, conj_wv]; ring
    exact this T subset_rfl
  obtain ⟨a, b, c, H⟩ := h2
  refine ⟨a.re / ((h : ℝ) * w), (b + conj c) / ((h : ℂ) * w), ?_⟩
  funext i j
  have h3 := congrArg Complex.re (h1 i j)
  rw [H] at h3
  have e : ((h : ℂ) * w) = (((h : ℝ) * w : ℝ) : ℂ) := by push_cast; rfl
  rw [e, div_ofReal_re] at h3
  change f i j = _ at h3
  unfold oneWave
  rw [h3, e, div_mul_eq_mul_div, div_ofReal_re, ← add_div]
  congr 1
  simp only [add_re, mul_re, conj_re, conj_im, add_im]
  ring

/-- modes of a field that varies along x only -/
def onlyX (h w : ℕ) : Set (ZMod h × ZMod w) := {p | p.1 = 0}
/-- modes of a field that varies along y only -/
def onlyY (h w : ℕ) : Set (ZMod h × ZMod w) := {p | p.2 = 0}

theorem supp_onlyX {f : Fld h w} : Supp (onlyX h w) f ↔ ∀ i j, f i j = f 0 j := by
  have sh : (∀ i j, f i j = f 0 j) ↔ shift 1 0 (cx f) = cx f := by
    constructor
    · intro H; funext i j; simp only [shift, cx]; rw [H, sub_zero, ← H i j]
    · intro H
      have step : ∀ (m : ℕ) j, f (m : ZMod h) j = f 0 j := by
        intro m j
        induction m with
        | zero => simp
        | succ m ih =>
          have := congrFun (congrFun H ((m + 1 : ℕ) : ZMod h)) j
          simp only [shift, cx, sub_zero, Nat.cast_add, Nat.cast_one, add_sub_cancel_right] at this
          rw [← ih]; push_cast; exact_mod_cast this.symm
      intro i j
      have := step i.val j
      rwa [ZMod.natCast_zmod_val] at this
  rw [sh]
  constructor
  · intro H
    refine D_inj ?_
    funext k l
    rw [D_shift]
    by_cases hk : k = 0
    · subst hk; simp only [zero_mul, mul_zero, neg_zero, ec_zero, one_mul]
    · rw [H k l hk, mul_zero]
  · intro H k l hk
    have h1 := D_shift (cx f) 1 0 k l
    rw [H] at h1
    simp only [mul_one, mul_zero, neg_zero, ec_zero] at h1
    have h3 : ec (-k) ≠ 1 := fun q => hk (neg_eq_zero.1 (ec_inj q))
    have h4 : (ec (-k) - 1) * D (cx f) k l = 0 := by linear_combination -h1
    exact (mul_eq_zero.1 h4).resolve_left fun q => h3 (sub_eq_zero.1 q)

theorem supp_onlyY {f : Fld h w} : Supp (onlyY h w) f ↔ ∀ i j, f i j = f i 0 := by
  have sh : (∀ i j, f i j = f i 0) ↔ shift 0 1 (cx f) = cx f := by
    constructor
    · intro H; funext i j; simp only [shift, cx]; rw [H, sub_zero, ← H i j]
    · intro H
      have step : ∀ (m : ℕ) i, f i (m : ZMod w) = f i 0 := by
        intro m i
        induction m with
        | zero => simp
        | succ m ih =>
          have := congrFun (congrFun H i) ((m + 1 : ℕ) : ZMod w)
          simp only [shift, cx, sub_zero, Nat.cast_add, Nat.cast_one, add_sub_cancel_right] at this
          rw [← ih]; push_cast; exact_mod_cast this.symm
      intro i j
      have := step j.val i
      rwa [ZMod.natCast_zmod_val] at this
  rw [sh]
  constructor
  · intro H
    refine D_inj ?_
    funext k l
    rw [D_shift]
    by_cases hk : l = 0
    · subst hk; simp only [zero_mul, mul_zero, neg_zero, ec_zero, one_mul]
    · rw [H k l hk, mul_zero]
  · intro H k l hk
    have h1 := D_shift (cx f) 0 1 k l
    rw [H] at h1
    simp only [mul_one, mul_zero, neg_zero, ec_zero, one_mul] at h1
    have h3 : ec (-l) ≠ 1 := fun q => hk (neg_eq_zero.1 (ec_inj q))
    have h4 : (ec (-l) - 1) * D (cx f) k l = 0 := by linear_combination -h1
    exact (mul_eq_zero.1 h4).resolve_left fun q => h3 (sub_eq_zero.1 q)

theorem jac_onlyX (dx : ℝ) {f g : Fld h w} (hf : ∀ i j, f i j = f 0 j) (hg : ∀ i j, g i j = g 0 j) :
    jac dx f g = 0 := by
  funext i j
  unfold jac
  rw [Pi.zero_apply, Pi.zero_apply, div_eq_zero_iff]
  left
  simp only [hf (i + 1), hf (i - 1), hf i, hg (i + 1), hg (i - 1), hg i]
  ring

theorem jac_onlyY (dx : ℝ) {f g : Fld h w} (hf : ∀ i j, f i j = f i 0) (hg : ∀ i j, g i j = g i 0) :
    jac dx f g = 0 := by
  funext i j
  unfold jac
  rw [Pi.zero_apply, Pi.zero_apply, div_eq_zero_iff]
  left
  simp only [hf _ (j + 1), hf _ (j - 1), hf _ j, hg _ (j + 1), hg _ (j - 1), hg _ j]
  ring

/-- brackets of fields with modes in `Λ` vanish -/
def NoBracket (Λ : Set (ZMod h × ZMod w)) : Prop :=
  ∀ (dx : ℝ) (f g : Fld h w), Supp Λ f → Supp Λ g → jac dx f g = 0

theorem noBracket_wave (k : ZMod h) (l : ZMod w) : NoBracket (waveModes k l) := by
  intro dx f g hf hg
  obtain ⟨a, z, rfl⟩ := oneWave_of_supp hf
  obtain ⟨b, y, rfl⟩ := oneWave_of_supp hg
  exact jac_oneWave dx k l a b z y
theorem noBracket_onlyX : NoBracket (onlyX h w) := fun dx _ _ hf hg =>
  jac_onlyX dx (supp_onlyX.1 hf) (supp_onlyX.1 hg)
theorem noBracket_onlyY : NoBracket (onlyY h w) := fun dx _ _ hf hg =>
  jac_onlyY dx (supp_onlyY.1 hf) (supp_onlyY.1 hg)

/-- pairs of fields with modes in `Λ` -/
noncomputable def suppP (Λ : Set (ZMod h × ZMod w)) : Submodule ℝ (Pair h w) where
  carrier := {u | ∀ k l, (k, l) ∉ Λ → ampl k l u = 0}
  add_mem' ha hb k l hk := by rw [map_add, ha k l hk, hb k l hk, add_zero]
  zero_mem' k l _ := map_zero _
  smul_mem' c u hu k l hk := by rw [map_smul, hu k l hk, smul_zero]

theorem mem_suppP {Λ : Set (ZMod h × ZMod w)} {u : Pair h w} : u ∈ suppP Λ ↔ Supp Λ u.1 ∧ Supp Λ u.2 := by
  constructor
  · intro H
    refine ⟨fun k l hk => ?_, fun k l hk => ?_⟩
    · exact congrFun (H k l hk) 0
    · exact congrFun (H k l hk) 1
  · rintro ⟨h1, h2⟩ k l hk
    rw [ampl_apply, h1 k l hk, h2 k l hk]; simp

theorem linU_supp (P : Params) {Λ : Set (ZMod h × ZMod w)} {u : Pair h w} (hu : u ∈ suppP Λ) :
    linU P u ∈ suppP Λ := by
  intro k l hk
  have := ampl_linU P (ZMod.val_lt k) (ZMod.val_lt l) u
  rw [ZMod.natCast_zmod_val, ZMod.natCast_zmod_val] at this
  rw [this, hu k l hk, mulVec_zero]

theorem rhsU_noBracket (P : Params) {Λ : Set (ZMod h × ZMod w)} (hΛ : NoBracket Λ) {u : Pair h w}
    (hu : u ∈ suppP Λ) : rhsU P u = linU P u := by
  have hp : Supp Λ (phiF P.dx u.2) := fun k l hk => by
    rw [D_phiF, (mem_suppP.1 hu).2 k l hk, mul_zero]
  have h1 := hΛ P.dx _ _ hp (mem_suppP.1 hu).1
  have h2 := hΛ P.dx _ _ hp (mem_suppP.1 hu).2
  refine Prod.ext ?_ ?_
  · funext i j
    change rhsN P u.1 (phiF P.dx u.2) i j = rhsN { P with pb := 0 } u.1 (phiF P.dx u.2) i j
    unfold rhsN
    rw [h1]; simp [hyper]
  · funext i j
    change rhsO P u.1 u.2 (phiF P.dx u.2) i j = rhsO { P with pb := 0 } u.1 u.2 (phiF P.dx u.2) i j
    unfold rhsO
    rw [h2]; simp [hyper]

theorem rk4U_on {E : Type} [AddCommGroup E] [Module ℝ E] (V : Submodule ℝ E) {F G : E → E}
    (hFG : ∀ u ∈ V, F u = G u) (hG : ∀ u ∈ V, G u ∈ V) (dt : ℝ) {u : E} (hu : u ∈ V) :
    rk4U F dt u = rk4U G dt u ∧ rk4U G dt u ∈ V := by
  have k1 := V.smul_mem dt (hG _ hu)
  have m1 := V.add_mem (V.smul_mem (1 / 2 : ℝ) k1) hu
  have k2 := V.smul_mem dt (hG _ m1)
  have m2 := V.add_mem (V.smul_mem (1 / 2 : ℝ) k2) hu
  have k3 := V.smul_mem dt (hG _ m2)
  have m3 := V.add_mem k3 hu
  have k4 := V.smul_mem dt (hG _ m3)
  constructor
  · unfold rk4U
    simp only [hFG _ hu, hFG _ m1, hFG _ m2, hFG _ m3]
  · exact V.add_mem (V.smul_mem _ (V.add_mem k4 (V.add_mem (V.smul_mem _ k3) (V.add_mem (V.smul_mem _ k2) k1)))) hu

end Verif
