import Verif.Lemmas.Growth
import Verif.Spec.Smooth
import Mathlib.Analysis.Calculus.Deriv.Mul
import Mathlib.Algebra.Order.Ring.Abs
import Mathlib.Tactic.Linarith

/-!
# Accuracy of the difference operators on smooth functions
-/

namespace Verif

open Spec Set

/-- second difference bounded by the second derivative -/
theorem second_le {f f1 f2 : ℝ → ℝ} (h0 : ∀ t, HasDerivAt f (f1 t) t)
    (h1 : ∀ t, HasDerivAt f1 (f2 t) t) {M : ℝ} (hM : ∀ t, |f2 t| ≤ M) (x : ℝ) {s : ℝ} (hs : 0 ≤ s) :
    |f (x + s) + f (x - s) - 2 * f x| ≤ M * s ^ 2 := by
  have hT : s ∈ Icc 0 s := ⟨hs, le_rfl⟩
  have p : ∀ {f f' : ℝ → ℝ}, (∀ t, HasDerivAt f (f' t) t) → ∀ t,
      HasDerivAt (fun t => f (x + t)) (f' (x + t)) t := fun hf t => (hf (x + t)).comp_const_add x t
  have m : ∀ {f f' : ℝ → ℝ}, (∀ t, HasDerivAt f (f' t) t) → ∀ t,
      HasDerivAt (fun t => f (x - t)) (-f' (x - t)) t := fun hf t => (hf (x - t)).comp_const_sub x t
  have b1 := growth (E := ℝ) (u := fun t => f1 (x + t) - f1 (x - t))
    (u' := fun t => f2 (x + t) + f2 (x - t)) (c := 2 * M) (T := s) 0 (by simp)
    (fun t _ => by
      have := (p h1 t).sub (m h1 t)
      rw [sub_neg_eq_add] at this
      exact this.hasDerivWithinAt)
    (fun t _ => by
      rw [Real.norm_eq_abs, pow_zero, mul_one]
      have := abs_add_le (f2 (x + t)) (f2 (x - t))
      linarith [hM (x + t), hM (x - t)])
  have b0 := growth (E := ℝ) (u := fun t => f (x + t) + f (x - t) - 2 * f x)
    (u' := fun t => f1 (x + t) - f1 (x - t)) (c := 2 * M) (T := s) 1 (by simp; ring)
    (fun t _ => by
      have := ((p h0 t).add (m h0 t)).sub_const (2 * f x)
      rw [← sub_eq_add_neg] at this
      exact this.hasDerivWithinAt)
    (fun t ht => (b1 t ht).trans_eq (by simp))
  have := b0 s hT
  rw [Real.norm_eq_abs] at this
  exact this.trans_eq (by norm_num; ring)

/-- difference bounded by the derivative -/
theorem first_le {f f1 : ℝ → ℝ} (h0 : ∀ t, HasDerivAt f (f1 t) t) {M : ℝ} (hM : ∀ t, |f1 t| ≤ M)
    (x : ℝ) {s : ℝ} (hs : 0 ≤ s) : |f (x + s) - f (x - s)| ≤ 2 * s * M := by
  have hT : s ∈ Icc 0 s := ⟨hs, le_rfl⟩
  have b0 := growth (E := ℝ) (u := fun t => f (x + t) - f (x - t))
    (u' := fun t => f1 (x + t) + f1 (x - t)) (c := 2 * M) (T := s) 0 (by simp)
    (fun t _ => by
      have := ((h0 (x + t)).comp_const_add x t).sub ((h0 (x - t)).comp_const_sub x t)
      rw [sub_neg_eq_add] at this
      exact this.hasDerivWithinAt)
    (fun t _ => by
      rw [Real.norm_eq_abs, pow_zero, mul_one]
      have := abs_add_le (f1 (x + t)) (f1 (x - t))
      linarith [hM (x + t), hM (x - t)])
  have := b0 s hT
  rw [Real.norm_eq_abs] at this
  exact this.trans_eq (by norm_num; ring)

/-- central difference of a product -/
theorem central_mul {z z1 z2 z3 q q1 q2 q3 : ℝ → ℝ} {A C : ℝ}
    (hz : ∀ t, HasDerivAt z (z1 t) t) (hz1 : ∀ t, HasDerivAt z1 (z2 t) t)
    (hz2 : ∀ t, HasDerivAt z2 (z3 t) t) (hq : ∀ t, HasDerivAt q (q1 t) t)
    (hq1 : ∀ t, HasDerivAt q1 (q2 t) t) (hq2 : ∀ t, HasDerivAt q2 (q3 t) t)
    (bz : ∀ t, |z t| ≤ A ∧ |z1 t| ≤ A ∧ |z2 t| ≤ A ∧ |z3 t| ≤ A)
    (bq : ∀ t, |q t| ≤ C ∧ |q1 t| ≤ C ∧ |q2 t| ≤ C ∧ |q3 t| ≤ C) (x : ℝ) {s : ℝ} (hs : 0 ≤ s) :
    |z (x + s) * q (x + s) - z (x - s) * q (x - s) - 2 * s * (z1 x * q x + z x * q1 x)|
      ≤ 8 * (A * C) * s ^ 3 / 3 := by
  refine central_first (f := fun t => z t * q t) (f1 := fun t => z1 t * q t + z t * q1 t)
    (f2 := fun t => z2 t * q t + 2 * (z1 t * q1 t) + z t * q2 t)
    (f3 := fun t => z3 t * q t + 3 * (z2 t * q1 t) + 3 * (z1 t * q2 t) + z t * q3 t)
    (fun t => (hz t).mul (hq t)) (fun t => ?_) (fun t => ?_) (fun t => ?_) x hs
  · have := ((hz1 t).mul (hq t)).add ((hz t).mul (hq1 t))
    exact this.congr_deriv (by ring)
  · have := (((hz2 t).mul (hq t)).add (((hz1 t).mul (hq1 t)).const_mul 2)).add ((hz t).mul (hq2 t))
    exact this.congr_deriv (by ring)
  · obtain ⟨a0, a1, a2, a3⟩ := bz t
    obtain ⟨c0, c1, c2, c3⟩ := bq t
    have hA : 0 ≤ A := (abs_nonneg _).trans a0
    have key : ∀ {u v : ℝ}, |u| ≤ A → |v| ≤ C → |u * v| ≤ A * C := fun hu hv => by
      rw [abs_mul]; exact mul_le_mul hu hv (abs_nonneg _) hA
    have k0 := abs_le.mp (key a3 c0)
    have k1 := abs_le.mp (key a2 c1)
    have k2 := abs_le.mp (key a1 c2)
    have k3 := abs_le.mp (key a0 c3)
    rw [abs_le]
    constructor <;> linarith [k0.1, k0.2, k1.1, k1.2, k2.1, k2.2, k3.1, k3.2]

/-! ### families of partial derivatives -/

theorem Spec.Partials.mono {r r' : ℕ} {D B} (hD : Partials r D B) (h : r' ≤ r) : Partials r' D B where
  dy a b hab := hD.dy a b (hab.trans h)
  dx a b hab := hD.dx a b (hab.trans h)
  bound a b hab := hD.bound a b (hab.trans h)

theorem Spec.Partials.swap {r : ℕ} {D B} (hD : Partials r D B) :
    Partials r (fun a b y x => D b a x y) B where
  dy a b hab y x := hD.dx b a (by omega) x y
  dx a b hab y x := hD.dy b a (by omega) x y
  bound a b hab y x := hD.bound b a (by omega) x y

theorem Spec.Partials.nonneg {r : ℕ} {D B} (hD : Partials r D B) : 0 ≤ B :=
  (abs_nonneg _).trans (hD.bound 0 0 (Nat.zero_le _) 0 0)

/-- central difference in y -/
noncomputable def cdY (s : ℝ) (F : ℝ → ℝ → ℝ) (y x : ℝ) : ℝ := (F (y + s) x - F (y - s) x) / (2 * s)
/-- central difference in x -/
noncomputable def cdX (s : ℝ) (F : ℝ → ℝ → ℝ) (y x : ℝ) : ℝ := (F y (x + s) - F y (x - s)) / (2 * s)
/-- five-point Laplacian on functions -/
noncomputable def Lh (s : ℝ) (F : ℝ → ℝ → ℝ) (y x : ℝ) : ℝ :=
  (F (y - s) x + F y (x - s) - ((4 : ℕ) : ℝ) * F y x + F y (x + s) + F (y + s) x) / s ^ 2
/-- Arakawa's Jacobian on functions -/
noncomputable def Jh (s : ℝ) (z p : ℝ → ℝ → ℝ) (y x : ℝ) : ℝ :=
  (z y (x + s) * (p (y + s) x - p (y - s) x + p (y + s) (x + s) - p (y - s) (x + s))
    - z y (x - s) * (p (y + s) x - p (y - s) x + p (y + s) (x - s) - p (y - s) (x - s))
    - z (y + s) x * (p y (x + s) - p y (x - s) + p (y + s) (x + s) - p (y + s) (x - s))
    + z (y - s) x * (p y (x + s) - p y (x - s) + p (y - s) (x + s) - p (y - s) (x - s))
    + z (y - s) (x + s) * (p y (x + s) - p (y - s) x)
    + z (y + s) (x + s) * (p (y + s) x - p y (x + s))
    - z (y + s) (x - s) * (p (y + s) x - p y (x - s))
    - z (y - s) (x - s) * (p y (x - s) - p (y - s) x)) / (((12 : ℕ) : ℝ) * s ^ 2)

theorem div_bound {e s M : ℝ} (hs : 0 < s) {n : ℕ} (k : ℝ) (h : |e| ≤ M * s ^ (n + 1) / k) :
    |e / (2 * s)| ≤ M * s ^ n / (2 * k) := by
  rw [abs_div, abs_of_pos (by positivity : 0 < 2 * s), div_le_iff₀ (by positivity)]
  refine h.trans_eq ?_
  rw [pow_succ]; field_simp

theorem cdY_err {r : ℕ} {D B} (hD : Partials r D B) {a b : ℕ} (hab : a + b + 3 ≤ r) {s : ℝ} (hs : 0 < s)
    (y x : ℝ) : |cdY s (D a b) y x - D (a + 1) b y x| ≤ B * s ^ 2 / 6 := by
  have h := central_first (f := fun y => D a b y x) (fun t => hD.dy a b (by omega) t x)
    (fun t => hD.dy (a + 1) b (by omega) t x) (fun t => hD.dy (a + 2) b (by omega) t x)
    (fun t => hD.bound (a + 3) b (by omega) t x) y hs.le
  have h2 := div_bound hs 3 h
  have e : cdY s (D a b) y x - D (a + 1) b y x
      = (D a b (y + s) x - D a b (y - s) x - 2 * s * D (a + 1) b y x) / (2 * s) := by
    unfold cdY; field_simp
  rw [e]
  exact h2.trans_eq (by norm_num)

theorem cdY_le {r : ℕ} {D B} (hD : Partials r D B) {a b : ℕ} (hab : a + b + 1 ≤ r) {s : ℝ} (hs : 0 < s)
    (y x : ℝ) : |cdY s (D a b) y x| ≤ B := by
  have h := first_le (f := fun y => D a b y x) (fun t => hD.dy a b (by omega) t x)
    (fun t => hD.bound (a + 1) b (by omega) t x) y hs.le
  unfold cdY
  rw [abs_div, abs_of_pos (by positivity : 0 < 2 * s), div_le_iff₀ (by positivity)]
  exact h.trans_eq (by ring)

theorem cdX_err {r : ℕ} {D B} (hD : Partials r D B) {a b : ℕ} (hab : a + b + 3 ≤ r) {s : ℝ} (hs : 0 < s)
    (y x : ℝ) : |cdX s (D a b) y x - D a (b + 1) y x| ≤ B * s ^ 2 / 6 :=
  cdY_err (D := fun a b y x => D b a x y) hD.swap (a := b) (b := a) (by omega) hs x y

theorem cdX_le {r : ℕ} {D B} (hD : Partials r D B) {a b : ℕ} (hab : a + b + 1 ≤ r) {s : ℝ} (hs : 0 < s)
    (y x : ℝ) : |cdX s (D a b) y x| ≤ B :=
  cdY_le (D := fun a b y x => D b a x y) hD.swap (a := b) (b := a) (by omega) hs x y

theorem abs_mul_le {u v A C : ℝ} (hu : |u| ≤ A) (hv : |v| ≤ C) : |u * v| ≤ A * C := by
  rw [abs_mul]; exact mul_le_mul hu hv (abs_nonneg _) ((abs_nonneg _).trans hu)

/-- central difference in x of `z · ∂y p` in flux form -/
theorem flux_err {Z P : ℕ → ℕ → ℝ → ℝ → ℝ} {A C : ℝ} (hZ : Partials 4 Z A) (hP : Partials 4 P C)
    {s : ℝ} (hs : 0 < s) (y x : ℝ) :
    |cdX s (fun y x => Z 0 0 y x * cdY s (P 0 0) y x) y x
      - (Z 0 1 y x * P 1 0 y x + Z 0 0 y x * P 1 1 y x)| ≤ 10 * (A * C) * s ^ 2 / 6 := by
  have hq : ∀ b, b + 1 ≤ 4 → ∀ t, HasDerivAt (fun x' => cdY s (P 0 b) y x') (cdY s (P 0 (b + 1)) y t) t := by
    intro b hb t
    exact ((hP.dx 0 b (by omega) (y + s) t).sub (hP.dx 0 b (by omega) (y - s) t)).div_const _
  have h := central_mul (z := fun x => Z 0 0 y x) (q := fun x => cdY s (P 0 0) y x)
    (fun t => hZ.dx 0 0 (by omega) y t) (fun t => hZ.dx 0 1 (by omega) y t)
    (fun t => hZ.dx 0 2 (by omega) y t) (hq 0 (by omega)) (hq 1 (by omega)) (hq 2 (by omega))
    (fun t => ⟨hZ.bound 0 0 (by omega) y t, hZ.bound 0 1 (by omega) y t, hZ.bound 0 2 (by omega) y t,
      hZ.bound 0 3 (by omega) y t⟩)
    (fun t => ⟨cdY_le hP (by omega) hs y t, cdY_le hP (by omega) hs y t, cdY_le hP (by omega) hs y t,
      cdY_le hP (by omega) hs y t⟩) x hs.le
  have h2 := div_bound hs 3 h
  have e0 := cdY_err hP (a := 0) (b := 0) (by omega) hs y x
  have e1 := cdY_err hP (a := 0) (b := 1) (by omega) hs y x
  have f0 := abs_mul_le (hZ.bound 0 1 (by omega) y x) e0
  have f1 := abs_mul_le (hZ.bound 0 0 (by omega) y x) e1
  have e : cdX s (fun y x => Z 0 0 y x * cdY s (P 0 0) y x) y x
      - (Z 0 1 y x * P 1 0 y x + Z 0 0 y x * P 1 1 y x)
      = (Z 0 0 y (x + s) * cdY s (P 0 0) y (x + s) - Z 0 0 y (x - s) * cdY s (P 0 0) y (x - s)
          - 2 * s * (Z 0 (0 + 1) y x * cdY s (P 0 0) y x + Z 0 0 y x * cdY s (P 0 (0 + 1)) y x)) / (2 * s)
        + Z 0 1 y x * (cdY s (P 0 0) y x - P (0 + 1) 0 y x)
        + Z 0 0 y x * (cdY s (P 0 1) y x - P (0 + 1) 1 y x) := by
    unfold cdX; simp only [zero_add]; field_simp; ring
  rw [e]
  have h2 := abs_le.mp h2
  have f0 := abs_le.mp f0
  have f1 := abs_le.mp f1
  rw [abs_le]
  constructor
  · linarith [h2.1, f0.1, f1.1]
  · linarith [h2.2, f0.2, f1.2]

theorem mul_err {u u' v v' A C e : ℝ} (hu : |u| ≤ A) (hv' : |v'| ≤ C) (eu : |u - u'| ≤ A * e)
    (ev : |v - v'| ≤ C * e) : |u * v - u' * v'| ≤ 2 * (A * C * e) := by
  have e1 : u * v - u' * v' = u * (v - v') + (u - u') * v' := by ring
  rw [e1]
  have h1 := abs_mul_le hu ev
  have h2 := abs_mul_le eu hv'
  refine (abs_add_le _ _).trans ?_
  linarith

/-- Arakawa's Jacobian is second-order accurate -/
theorem Jh_err {Z P : ℕ → ℕ → ℝ → ℝ → ℝ} {A C : ℝ} (hZ : Partials 4 Z A) (hP : Partials 4 P C)
    {s : ℝ} (hs : 0 < s) (y x : ℝ) :
    |Jh s (Z 0 0) (P 0 0) y x - (Z 0 1 y x * P 1 0 y x - Z 1 0 y x * P 0 1 y x)|
      ≤ 22 / 9 * (A * C) * s ^ 2 := by
  -- flux forms
  have a1 := flux_err hZ hP hs y x
  have a2 := flux_err hZ.swap hP.swap hs x y
  have a3 := flux_err hP hZ hs y x
  have a4 := flux_err hP.swap hZ.swap hs x y
  have p1 := mul_err (e := s ^ 2 / 6) (cdX_le hZ (a := 0) (b := 0) (by omega) hs y x)
    (hP.bound 1 0 (by omega) y x)
    (by simpa [mul_div_assoc] using cdX_err hZ (a := 0) (b := 0) (by omega) hs y x)
    (by simpa [mul_div_assoc] using cdY_err hP (a := 0) (b := 0) (by omega) hs y x)
  have p2 := mul_err (e := s ^ 2 / 6) (cdY_le hZ (a := 0) (b := 0) (by omega) hs y x)
    (hP.bound 0 1 (by omega) y x)
    (by simpa [mul_div_assoc] using cdY_err hZ (a := 0) (b := 0) (by omega) hs y x)
    (by simpa [mul_div_assoc] using cdX_err hP (a := 0) (b := 0) (by omega) hs y x)
  have key : Jh s (Z 0 0) (P 0 0) y x
      = ((cdX s (Z 0 0) y x * cdY s (P 0 0) y x - cdY s (Z 0 0) y x * cdX s (P 0 0) y x)
        + (cdX s (fun y x => Z 0 0 y x * cdY s (P 0 0) y x) y x
          - cdX s (fun x y => Z 0 0 y x * cdY s (fun x y => P 0 0 y x) x y) x y)
        + (cdX s (fun x y => P 0 0 y x * cdY s (fun x y => Z 0 0 y x) x y) x y
          - cdX s (fun y x => P 0 0 y x * cdY s (Z 0 0) y x) y x)) / 3 := by
    unfold Jh cdX cdY
    push_cast
    field_simp
    ring
  rw [key]
  have a1 := abs_le.mp a1
  have a2 := abs_le.mp a2
  have a3 := abs_le.mp a3
  have a4 := abs_le.mp a4
  have p1 := abs_le.mp p1
  have p2 := abs_le.mp p2
  rw [abs_le]
  obtain ⟨a1l, a1u⟩ := a1
  obtain ⟨a2l, a2u⟩ := a2
  obtain ⟨a3l, a3u⟩ := a3
  obtain ⟨a4l, a4u⟩ := a4
  obtain ⟨p1l, p1u⟩ := p1
  obtain ⟨p2l, p2u⟩ := p2
  have hc : C * A = A * C := mul_comm _ _
  rw [hc] at a3l a3u a4l a4u
  constructor <;> linarith

/-! ### five-point Laplacian and its powers -/

theorem lapY_err {r : ℕ} {D B} (hD : Partials r D B) {a b : ℕ} (hab : a + b + 4 ≤ r) {s : ℝ} (hs : 0 < s)
    (y x : ℝ) : |(D a b (y + s) x + D a b (y - s) x - 2 * D a b y x) / s ^ 2 - D (a + 2) b y x|
      ≤ B * s ^ 2 / 12 := by
  have h := central_second (f := fun y => D a b y x) (fun t => hD.dy a b (by omega) t x)
    (fun t => hD.dy (a + 1) b (by omega) t x) (fun t => hD.dy (a + 2) b (by omega) t x)
    (fun t => hD.dy (a + 3) b (by omega) t x) (fun t => hD.bound (a + 4) b (by omega) t x) y hs.le
  have e : (D a b (y + s) x + D a b (y - s) x - 2 * D a b y x) / s ^ 2 - D (a + 2) b y x
      = (D a b (y + s) x + D a b (y - s) x - 2 * D a b y x - s ^ 2 * D (a + 2) b y x) / s ^ 2 := by
    field_simp
  rw [e, abs_div, abs_of_pos (by positivity : 0 < s ^ 2), div_le_iff₀ (by positivity)]
  exact h.trans_eq (by ring)

theorem lapY_le {r : ℕ} {D B} (hD : Partials r D B) {a b : ℕ} (hab : a + b + 2 ≤ r) {s : ℝ} (hs : 0 < s)
    (y x : ℝ) : |(D a b (y + s) x + D a b (y - s) x - 2 * D a b y x) / s ^ 2| ≤ B := by
  have h := second_le (f := fun y => D a b y x) (fun t => hD.dy a b (by omega) t x)
    (fun t => hD.dy (a + 1) b (by omega) t x) (fun t => hD.bound (a + 2) b (by omega) t x) y hs.le
  rwa [abs_div, abs_of_pos (by positivity : 0 < s ^ 2), div_le_iff₀ (by positivity)]

theorem Lh_split (s : ℝ) (F : ℝ → ℝ → ℝ) (y x : ℝ) :
    Lh s F y x = (F (y + s) x + F (y - s) x - 2 * F y x) / s ^ 2
      + (F y (x + s) + F y (x - s) - 2 * F y x) / s ^ 2 := by
  unfold Lh; push_cast; ring

theorem Lh_err {r : ℕ} {D B} (hD : Partials r D B) {a b : ℕ} (hab : a + b + 4 ≤ r) {s : ℝ} (hs : 0 < s)
    (y x : ℝ) : |Lh s (D a b) y x - lapFam D a b y x| ≤ B * s ^ 2 / 6 := by
  have h1 := lapY_err hD hab hs y x
  have h2 := lapY_err (D := fun a b y x => D b a x y) hD.swap (a := b) (b := a) (by omega) hs x y
  rw [Lh_split]
  unfold lapFam
  have h1 := abs_le.mp h1
  have h2 := abs_le.mp h2
  rw [abs_le]
  constructor
  · linarith [h1.1, h2.1]
  · linarith [h1.2, h2.2]

theorem Lh_le {r : ℕ} {D B} (hD : Partials r D B) {a b : ℕ} (hab : a + b + 2 ≤ r) {s : ℝ} (hs : 0 < s)
    (y x : ℝ) : |Lh s (D a b) y x| ≤ 2 * B := by
  have h1 := lapY_le hD hab hs y x
  have h2 := lapY_le (D := fun a b y x => D b a x y) hD.swap (a := b) (b := a) (by omega) hs x y
  rw [Lh_split]
  refine (abs_add_le _ _).trans ?_
  linarith

theorem isDy_Lh {F G : ℝ → ℝ → ℝ} (s : ℝ) (h : HasPartialY F G) : HasPartialY (Lh s F) (Lh s G) := by
  intro y x
  unfold Lh
  have m : HasDerivAt (fun y' => F (y' - s) x) (G (y - s) x) y := (h (y - s) x).comp_sub_const y s
  have p : HasDerivAt (fun y' => F (y' + s) x) (G (y + s) x) y := (h (y + s) x).comp_add_const y s
  exact ((((m.add (h y (x - s))).sub ((h y x).const_mul _)).add (h y (x + s))).add p).div_const _

theorem isDx_Lh {F G : ℝ → ℝ → ℝ} (s : ℝ) (h : HasPartialX F G) : HasPartialX (Lh s F) (Lh s G) := by
  intro y x
  unfold Lh
  have m : HasDerivAt (fun x' => F y (x' - s)) (G y (x - s)) x := (h y (x - s)).comp_sub_const x s
  have p : HasDerivAt (fun x' => F y (x' + s)) (G y (x + s)) x := (h y (x + s)).comp_add_const x s
  exact (((((h (y - s) x).add m).sub ((h y x).const_mul _)).add p).add (h (y + s) x)).div_const _

theorem Spec.Partials.lapFam {r : ℕ} {D B} (hD : Partials (r + 2) D B) :
    Partials r (Spec.lapFam D) (2 * B) where
  dy a b hab y x := by
    have := (hD.dy (a + 2) b (by omega) y x).add (hD.dy a (b + 2) (by omega) y x)
    exact (this.congr_deriv (by unfold Spec.lapFam; rw [show a + 2 + 1 = a + 1 + 2 by ring]))
  dx a b hab y x := by
    have := (hD.dx (a + 2) b (by omega) y x).add (hD.dx a (b + 2) (by omega) y x)
    exact (this.congr_deriv (by unfold Spec.lapFam; rw [show b + 2 + 1 = b + 1 + 2 by ring]))
  bound a b hab y x := by
    refine (abs_add_le _ _).trans ?_
    linarith [hD.bound (a + 2) b (by omega) y x, hD.bound a (b + 2) (by omega) y x]

theorem Spec.Partials.Lh {r : ℕ} {D B} (hD : Partials (r + 2) D B) {s : ℝ} (hs : 0 < s) :
    Partials r (fun a b => Verif.Lh s (D a b)) (2 * B) where
  dy a b hab := isDy_Lh s (hD.dy a b (by omega))
  dx a b hab := isDx_Lh s (hD.dx a b (by omega))
  bound a b hab y x := Lh_le hD (by omega) hs y x

/-- truncation error of the Laplacian, as a family -/
theorem Spec.Partials.err {r : ℕ} {D B} (hD : Partials (r + 4) D B) {s : ℝ} (hs : 0 < s) :
    Partials r (fun a b y x => Verif.Lh s (D a b) y x - Spec.lapFam D a b y x) (B * s ^ 2 / 6) where
  dy a b hab y x := (isDy_Lh s (hD.dy a b (by omega)) y x).sub
    ((hD.mono (by omega : r + 2 ≤ r + 4)).lapFam.dy a b hab y x)
  dx a b hab y x := (isDx_Lh s (hD.dx a b (by omega)) y x).sub
    ((hD.mono (by omega : r + 2 ≤ r + 4)).lapFam.dx a b hab y x)
  bound a b hab y x := Lh_err hD (by omega) hs y x

theorem Lh_iterate_le {s : ℝ} (hs : 0 < s) (m : ℕ) : ∀ {D B}, Partials (2 * m) D B → ∀ y x,
    |(Lh s)^[m] (D 0 0) y x| ≤ 2 ^ m * B := by
  induction m with
  | zero => intro D B hD y x; simpa using hD.bound 0 0 (by omega) y x
  | succ m ih =>
    intro D B hD y x
    rw [Function.iterate_succ_apply]
    have := ih (D := fun a b => Lh s (D a b)) (hD.Lh hs) y x
    refine this.trans_eq ?_
    rw [pow_succ]; ring

theorem Lh_sub (s : ℝ) (F G : ℝ → ℝ → ℝ) :
    Lh s (fun y x => F y x - G y x) = fun y x => Lh s F y x - Lh s G y x := by
  funext y x; unfold Lh; ring

theorem Lh_iterate_sub (s : ℝ) (m : ℕ) (F G : ℝ → ℝ → ℝ) :
    (Lh s)^[m] (fun y x => F y x - G y x) = fun y x => (Lh s)^[m] F y x - (Lh s)^[m] G y x := by
  induction m generalizing F G with
  | zero => rfl
  | succ m ih => simp only [Function.iterate_succ_apply, Lh_sub, ih]

/-- powers of the five-point Laplacian are second-order accurate -/
theorem Lh_iterate_err {s : ℝ} (hs : 0 < s) (m : ℕ) : ∀ {D B}, Partials (2 * m + 2) D B → ∀ y x,
    |(Lh s)^[m] (D 0 0) y x - (lapFam^[m] D) 0 0 y x| ≤ m * 2 ^ m * B * s ^ 2 / 12 := by
  induction m with
  | zero => intro D B hD y x; simp
  | succ m ih =>
    intro D B hD y x
    have hB := hD.nonneg
    have h1 := ih (D := lapFam D) (B := 2 * B) (Spec.Partials.lapFam (hD.mono (by omega))) y x
    have h2 := Lh_iterate_le hs m (Spec.Partials.err (r := 2 * m) (hD.mono (by omega)) hs) y x
    simp only [Function.iterate_succ_apply]
    rw [Lh_iterate_sub] at h2
    have e : (Lh s)^[m] (Lh s (D 0 0)) y x - (lapFam^[m] (lapFam D)) 0 0 y x
        = ((Lh s)^[m] (Lh s (D 0 0)) y x - (Lh s)^[m] (lapFam D 0 0) y x)
          + ((Lh s)^[m] (lapFam D 0 0) y x - (lapFam^[m] (lapFam D)) 0 0 y x) := by ring
    rw [e]
    refine (abs_add_le _ _).trans ?_
    push_cast
    rw [pow_succ]
    have := add_le_add h2 h1
    refine this.trans_eq ?_
    ring

end Verif
