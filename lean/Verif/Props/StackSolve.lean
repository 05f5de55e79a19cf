import Verif.Lemmas.StackSolve
import Verif.Lemmas.Stencil
import Verif.Lemmas.HWField
import Verif.Props.Stack

/-!
# C115: brackets and potentials of stacks of frames

The vectorised bracket and the Poisson solver accept arrays with leading axes
without complaint, but do not work frame by frame on them.
-/

set_option linter.unusedSectionVars false

namespace Verif.Props

open Spec Stacked Arr

section bracket

variable {α : Type} [Inhabited α] [Add α] [Sub α] [Mul α] [Div α] [NatCast α] [Pow α ℕ]

/-- **C115 (bracket), partial**: without leading axes the functions for arrays of any rank are the two-dimensional ones.
Missing: leading axes, see `C115_bracket_violated`. -/
theorem C115_bracket_partial (h w h' w' : ℕ) (z p : Nd α) (hz : z.shape = [h, w]) (hp : p.shape = [h', w']) (dx : α) :
    FramePerFrame [] (periodic_arakawa_vec z p dx)
      fun b => NumpyArakawa.periodic_arakawa_vec (frame h w z b) (frame h' w' p b) dx := by
  rw [← fr_eq (B := []) hz, ← fr_eq (B := []) hp]
  exact (per_periodic_arakawa ⟨h, w, hz⟩ ⟨h', w', hp⟩ dx).toFrame

/-- **C115 (bracket) is violated** for every stack with at least one leading axis: the bracket of two stacks of frames
of shape `(h, w)` has frames with `w + 2` columns; the leading axis takes part in the bracket as if it were `y`. -/
theorem C115_bracket_violated (B : List ℕ) (hB : B ≠ []) (h w : ℕ) (hpos : ∀ n ∈ B ++ [h, w], 0 < n) (z p : Nd α)
    (hz : z.shape = B ++ [h, w]) (hp : p.shape = B ++ [h, w]) (dx : α) :
    (∃ y, periodic_arakawa_vec z p dx = .ok y ∧ y.shape.length = B.length + 2 ∧ y.shape.getLast? = some (w + 2)) ∧
    ¬ FramePerFrame B (periodic_arakawa_vec z p dx)
      fun b => NumpyArakawa.periodic_arakawa_vec (frame h w z b) (frame h w p b) dx := by
  have e : ∃ y, periodic_arakawa_vec z p dx = .ok y ∧ y.shape.length = B.length + 2 ∧ y.shape.getLast? = some (w + 2) := by
    match B, hB with
    | [a], _ =>
      obtain ⟨y, e1, e2⟩ := shaped_periodic_arakawa (s := [w]) hz hp hpos dx
      exact ⟨y, e1, by rw [e2]; rfl, by rw [e2]; rfl⟩
    | a :: c :: s, _ =>
      obtain ⟨y, e1, e2⟩ := shaped_periodic_arakawa (s := s ++ [h, w]) hz hp hpos dx
      refine ⟨y, e1, by rw [e2]; simp, ?_⟩
      rw [e2, List.map_append]
      change (a :: c :: (List.map _ s ++ [h + 2, w + 2])).getLast? = _
      rw [show a :: c :: (List.map (· + 2) s ++ [h + 2, w + 2]) = (a :: c :: (List.map (· + 2) s ++ [h + 2])) ++ [w + 2] by simp,
        List.getLast?_concat]
  refine ⟨e, fun hF => ?_⟩
  obtain ⟨y, e1, -, e2⟩ := e
  rw [e1] at hF
  obtain ⟨h', w', e3, hF⟩ := hF
  have hw' : w' = w + 2 := by
    rw [e3, show B ++ [h', w'] = (B ++ [h']) ++ [w'] by simp, List.getLast?_concat] at e2
    exact Option.some.inj e2
  have hr : Nd.InRange B (List.replicate B.length 0) := by
    have : ∀ n ∈ B, 0 < n := fun n hn => hpos n (by simp [hn])
    clear hB hz hp hF e3 hpos e1
    induction B with
    | nil => exact .nil
    | cons a B ih => exact .cons (this a (by simp)) (ih fun m hm => this m (by simp [hm]))
  have h0 : NeZero h := ⟨(hpos h (by simp)).ne'⟩
  have w0 : NeZero w := ⟨(hpos w (by simp)).ne'⟩
  have := hF _ hr
  dsimp only at this
  rw [← Arr.ofField_field (frame h w z _), ← Arr.ofField_field (frame h w p _)] at this
  have this := (numpy_arakawa_vec_ofField (h := h) (w := w) (Arr.field (frame h w z _)) (Arr.field (frame h w p _))
    dx).symm.trans this
  injection this with this
  have : w = w' := congrArg Arr.w this
  omega

example := C115_bracket_partial 4 4 4 4 (⟨[4, 4], demoNd.get⟩ : Nd ℝ) ⟨[4, 4], demoNd.get⟩ rfl rfl (1 / 2)
example := C115_bracket_violated [2, 3] (by simp) 4 4 (by simp) demoNd demoNd rfl rfl (1 / 2)

end bracket

/-! ## Poisson solver -/

/-- **C115 (solver), partial**: without leading axes the solver for arrays of any rank is the two-dimensional one.
Missing: leading axes, see `C115_solver_stack` and `C115_solver_violated`. -/
theorem C115_solver_partial (h w : ℕ) (x : Nd ℝ) (hx : x.shape = [h, w]) (dx : ℝ) (times : ℕ) :
    FramePerFrame [] (fourier_poisson_double x dx times)
      fun b => NumpyPoisson.fourier_poisson_double (frame h w x b) dx times := by
  rw [← fr_eq (B := []) hx]
  have := per_poisson (B := []) hx (by simp) dx times
  refine Per.toFrame ?_
  have e : ∀ b, Nd.InRange [] b → solveWith (tab h w fun i j => divisor ([] ++ [h, w]) (b ++ [i, j])) (fr x b) dx times
      = NumpyPoisson.fourier_poisson_double (fr x b) dx times := by
    intro b hb
    obtain rfl : b = [] := by simpa using hb.length
    have e1 : (fr x []).h = h := by rw [fr_of (B := []) hx]; rfl
    have e2 : (fr x []).w = w := by rw [fr_of (B := []) hx]; rfl
    have e3 : (tab h w fun i j => divisor ([] ++ [h, w]) ([] ++ [i, j])) = tab h w fun i j =>
        if i = 0 ∧ j = 0 then FloatX.inf else .fin (-((2 * Real.pi) ^ 2) *
          (tab h w fun i j => fftfreq h i ^ 2 + fftfreq w j ^ 2 : Arr ℝ).at' i j) := by
      refine tab_congr rfl rfl fun i j hi hj => ?_
      rw [tab_at' _ _ _ hi hj]
      unfold divisor ksq
      simp
    unfold solveWith NumpyPoisson.fourier_poisson_double
    rw [e1, e2, e3]
  revert this
  generalize fourier_poisson_double x dx times = m
  intro this
  cases m with
  | error _ => exact fun b hb => (e b hb).symm.trans (this b hb)
  | ok y => exact ⟨this.1, fun b hb => (e b hb).symm.trans (this.2 b hb)⟩

/-- **C115 (solver): what is computed for a stack.**  The leading indices are taken for wave numbers: the coefficient of
the wave `(k, l)` in frame `b` is divided by `-(2π/dx)² (|f_b|² + f_k² + f_l²)`, where `f_b` are the `fftfreq` values of
the leading index; so frame `b` solves a screened equation `∇²φ - (2π|f_b|/dx)² φ = ω` instead of the Poisson equation.
The entries whose first two indices vanish (for rank 3: all waves of frame 0 that do not depend on `y`) are dropped. -/
theorem C115_solver_stack (B : List ℕ) (hB : B ≠ []) (h w : ℕ) (hpos : ∀ n ∈ B ++ [h, w], 0 < n) (x : Nd ℝ)
    (hx : x.shape = B ++ [h, w]) (dx : ℝ) :
    ∃ y, fourier_poisson_double x dx = .ok y ∧ y.shape = B ++ [h, w] ∧ ∀ b, Nd.InRange B b → ∀ k < h, ∀ l < w,
      coef h w (fun i j => y.get (b ++ [i, j])) k l =
        if (b ++ [k, l]).getD 0 0 = 0 ∧ (b ++ [k, l]).getD 1 0 = 0 then 0
        else coef h w (fun i j => x.get (b ++ [i, j])) k l * ((dx ^ 2 / (-((2 * Real.pi) ^ 2) *
          ((List.zipWith (fun n i => Arr.fftfreq n i ^ 2) B b).sum + Arr.fftfreq h k ^ 2 + Arr.fftfreq w l ^ 2)) : ℝ) : ℂ) := by
  have h0 : NeZero h := ⟨(hpos h (by simp)).ne'⟩
  have w0 : NeZero w := ⟨(hpos w (by simp)).ne'⟩
  have hP := per_poisson hx (fun hb => absurd (hpos 0 (by simp [hb])) (by omega)) dx 1
  have hr : Nd.InRange B (List.replicate B.length 0) := by
    have : ∀ n ∈ B, 0 < n := fun n hn => hpos n (by simp [hn])
    clear hB hx hpos hP
    induction B with
    | nil => exact .nil
    | cons a B ih => exact .cons (this a (by simp)) (ih fun m hm => this m (by simp [hm]))
  have hf : ∀ b, fr x b = ofField (fun (i : ZMod h) (j : ZMod w) => x.get (b ++ [i.val, j.val])) := by
    intro b
    rw [fr_of hx]
    refine tab_congr rfl rfl fun i j hi hj => ?_
    beta_reduce
    rw [ZMod.val_cast_of_lt hi, ZMod.val_cast_of_lt hj]
  revert hP
  cases hm : fourier_poisson_double x dx 1 with
  | error e =>
    intro hP
    have := hP _ hr
    dsimp only at this
    rw [hf, solveWith_ofField hr] at this
    exact nomatch this
  | ok y =>
    rintro ⟨⟨h', w', e⟩, hP⟩
    have hsh : h' = h ∧ w' = w := by
      have := hP _ hr
      beta_reduce at this
      rw [hf, solveWith_ofField hr, fr_of e] at this
      injection this with this
      exact ⟨(congrArg Arr.h this).symm, (congrArg Arr.w this).symm⟩
    obtain ⟨rfl, rfl⟩ := hsh
    refine ⟨y, rfl, e, fun b hb k hk l hl => ?_⟩
    have hbn : b ≠ [] := fun hb0 => hB (by have := hb.length; rw [hb0] at this; simpa [eq_comm] using this)
    have e1 := hP b hb
    beta_reduce at e1
    rw [hf, solveWith_ofField hb, fr_of e] at e1
    injection e1 with e1
    have e2 : ∀ i j, i < h' → j < w' → y.get (b ++ [i, j])
        = mult (sigB B b) (fun (i : ZMod h') (j : ZMod w') => x.get (b ++ [i.val, j.val])) i j * dx ^ 2 := by
      intro i j hi hj
      have := congrArg (fun a => Arr.at' a i j) e1
      rw [tab_at' _ _ _ hi hj, ofField_at' _ hi hj] at this
      exact this.symm
    rw [spec_coef_of (G := fun i j => y.get (b ++ [i, j]))
      (g := fun i j => mult (sigB B b) (fun (i : ZMod h') (j : ZMod w') => x.get (b ++ [i.val, j.val])) i j * dx ^ 2) e2, spec_coef_of (g := fun (i : ZMod h') (j : ZMod w') => x.get (b ++ [i.val, j.val]))
      (fun i j hi hj => by rw [ZMod.val_cast_of_lt hi, ZMod.val_cast_of_lt hj]),
      D_mult_scaled _ (sigB_neg B hbn)]
    unfold sigB
    beta_reduce
    rw [ZMod.val_cast_of_lt hk, ZMod.val_cast_of_lt hl]
    split_ifs with hc
    · simp
    · unfold lamB ksq
      rw [kap_cast hk, kap_cast hl]
      push_cast
      ring

example := C115_solver_stack [2, 3] (by simp) 4 4 (by simp) demoNd rfl (1 / 2)

/-- **C115 (solver) is violated**: as soon as some frame other than the first of a stack is not uniform, the result is
not frame by frame. -/
theorem C115_solver_violated (B : List ℕ) (h w : ℕ) (hpos : ∀ n ∈ B ++ [h, w], 0 < n) (x : Nd ℝ)
    (hx : x.shape = B ++ [h, w]) (dx : ℝ) (hdx : dx ≠ 0) (b : List ℕ) (hb : Nd.InRange B b) (hb0 : ∃ i ∈ b, i ≠ 0)
    (hne : ∃ i < h, ∃ j < w, x.get (b ++ [i, j]) ≠ x.get (b ++ [0, 0])) :
    ¬ FramePerFrame B (fourier_poisson_double x dx)
      fun b => NumpyPoisson.fourier_poisson_double (frame h w x b) dx := by
  intro hF
  have h0 : NeZero h := ⟨(hpos h (by simp)).ne'⟩
  have w0 : NeZero w := ⟨(hpos w (by simp)).ne'⟩
  have hbn : b ≠ [] := by rintro rfl; obtain ⟨i, hi, -⟩ := hb0; simp at hi
  have hP := per_poisson hx (fun hb => absurd (hpos 0 (by simp [hb])) (by omega)) dx 1
  have hf : frame h w x b = ofField (fun (i : ZMod h) (j : ZMod w) => x.get (b ++ [i.val, j.val])) := by
    refine tab_congr rfl rfl fun i j hi hj => ?_
    beta_reduce
    rw [ZMod.val_cast_of_lt hi, ZMod.val_cast_of_lt hj]
  have hP' := hP.toFrame
  rw [fr_eq hx] at hP'
  set f : Fld h w := fun i j => x.get (b ++ [i.val, j.val]) with hfd
  -- both descriptions of frame `b` agree
  have key : mult (sigB B b) f = mult (sig 1) f := by
    have : solveWith (tab h w fun i j => divisor (B ++ [h, w]) (b ++ [i, j])) (frame h w x b) dx 1
        = NumpyPoisson.fourier_poisson_double (frame h w x b) dx := by
      revert hF hP'
      generalize fourier_poisson_double x dx 1 = m
      intro hF hP'
      cases m with
      | error e => exact (hP' b hb).trans (hF b hb).symm
      | ok y =>
        obtain ⟨h1, w1, s1, hF⟩ := hF
        obtain ⟨h2, w2, s2, hP'⟩ := hP'
        have hs := s1.symm.trans s2
        have : h1 = h2 ∧ w1 = w2 := by simpa using hs
        obtain ⟨rfl, rfl⟩ := this
        exact (hP' b hb).trans (hF b hb).symm
    rw [hf, solveWith_ofField hb, numpy_poisson_ofField] at this
    injection this with this
    have := Arr.ofField_inj this
    funext i j
    have := congrFun (congrFun this i) j
    exact mul_right_cancel₀ (pow_ne_zero 2 hdx) this
  -- so every wave but the mean vanishes
  have hz : ∀ (k : ZMod h) (l : ZMod w), ¬ (k = 0 ∧ l = 0) → D (cx f) k l = 0 := by
    intro k l hkl
    have e1 := congrFun (congrFun (congrArg (fun g => D (cx g)) key) k) l
    rw [D_mult _ (sigB_neg B hbn), D_mult _ (sig_neg 1)] at e1
    by_contra hD
    have e2 := mul_right_cancel₀ hD e1
    have e3 : sigB B b k l = sig 1 k l := by exact_mod_cast e2
    unfold sigB sig at e3
    rw [if_neg hkl, pow_one] at e3
    have hl : lamb k l ≠ 0 := by rw [Ne, lamb_eq_zero]; exact hkl
    split_ifs at e3 with hc
    · exact (one_div_ne_zero hl) e3.symm
    · have e4 : lamB B b k l = lamb k l := by
        rw [one_div, one_div, inv_inj] at e3; exact e3
      unfold lamB lamb at e4
      have e5 := mul_left_cancel₀ (neg_ne_zero.mpr (pow_ne_zero 2 (mul_ne_zero two_ne_zero Real.pi_ne_zero))) e4
      have : ksq B b = 0 := by linarith
      obtain ⟨i, hi, hi0⟩ := hb0
      exact hi0 ((ksq_eq_zero hb).mp this i hi)
  have hc : ∀ i j, cx f i j = cx f 0 0 := by
    have e1 : D (cx f) = fun k l => if k = 0 ∧ l = 0 then D (cx f) 0 0 else 0 := by
      funext k l
      split_ifs with hkl
      · rw [hkl.1, hkl.2]
      · exact hz k l hkl
    have e2 := ID_D (cx f)
    rw [e1, ID_delta] at e2
    intro i j
    rw [← e2]
  obtain ⟨i, hi, j, hj, hij⟩ := hne
  apply hij
  have := hc (i : ZMod h) (j : ZMod w)
  have : f i j = f 0 0 := by exact_mod_cast this
  rw [hfd] at this
  simpa [ZMod.val_cast_of_lt hi, ZMod.val_cast_of_lt hj] using this

example := C115_solver_violated [2, 3] 4 4 (by simp) demoNd rfl (1 / 2) (by norm_num) [1, 2]
  (.cons (by decide) (.cons (by decide) .nil)) ⟨1, by simp, by decide⟩
  ⟨0, by decide, 1, by decide, by simp [demoNd, Nd.ravel]⟩
example := C115_solver_partial 4 4 ⟨[4, 4], demoNd.get⟩ rfl (1 / 2) 2

end Verif.Props
