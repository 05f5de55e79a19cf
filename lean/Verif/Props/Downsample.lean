import Verif.Lemmas.Downsample
import Verif.Lemmas.Resample
import Verif.Spec.Run
import Verif.Spec.Exact
import Verif.Spec.Fourier
import Verif.Props.RunPhysics
import Mathlib.Tactic.NormNum
import Mathlib.Tactic.IntervalCases

/-!
# C59, C60, C61, C78, C79: downsampling
-/

set_option linter.unusedSectionVars false

namespace Verif.Props

open Downsample Spec Nd H5IO Run

/-! ### C59: the size of the file and the size of the downsampled frames -/

section C59
variable {α : Type} [FloatOps α]

/-- **C59.**  Whatever the floating-point arithmetic: if `fourier_downsample`
returns an array, its shape is the one `run` computes for buffers and datasets. -/
theorem C59_shape (x B : Arr ℝ) (f : α) (hf : downsampling f = true) (h : fourier_downsample x f = .ok B) :
    saveDim x.h f = .ok B.h ∧ saveDim x.w f = .ok B.w := by
  unfold fourier_downsample roundedLength at h
  unfold saveDim
  simp only [hf, if_true]
  cases q0 : FloatOps.div (FloatOps.ofInt x.h) f with
  | error e => rw [q0] at h; cases h
  | ok q =>
    rw [q0] at h
    simp only [Py.ok_bind] at h ⊢
    cases z0 : FloatOps.round q with
    | error e => rw [z0] at h; cases h
    | ok z =>
      rw [z0] at h
      cases q1 : FloatOps.div (FloatOps.ofInt x.w) f with
      | error e => rw [q1] at h; cases h
      | ok q' =>
        rw [q1] at h
        simp only [Py.ok_bind] at h ⊢
        cases z1 : FloatOps.round q' with
        | error e => rw [z1] at h; cases h
        | ok z' =>
          rw [z1] at h
          simp only [Py.ok_bind] at h ⊢
          unfold resampleCols resampleRows at h
          split_ifs at h with c1
          · cases h
          · simp only [Py.ok_bind] at h
            split_ifs at h with c2
            injection h with h
            subst h
            simp only [Arr.tab_h, Arr.tab_w]
            rw [if_neg (by omega), if_neg (by omega)]
            exact ⟨rfl, rfl⟩

/-- **C59.**  Conversely, for every grid size and factor for which the file has
at least one point per direction, downsampling succeeds with that shape. -/
theorem C59_succeeds (x : Arr ℝ) (f : α) (hf : downsampling f = true) {ny nx : ℕ} (h0 : 0 < x.h) (w0 : 0 < x.w)
    (hy : saveDim x.h f = .ok ny) (hx : saveDim x.w f = .ok nx) (ny0 : 0 < ny) (nx0 : 0 < nx) :
    ∃ B, fourier_downsample x f = .ok B ∧ B.h = ny ∧ B.w = nx := by
  unfold saveDim at hy hx
  simp only [hf, if_true] at hy hx
  unfold fourier_downsample roundedLength
  cases q0 : FloatOps.div (FloatOps.ofInt x.h) f with
  | error e => rw [q0] at hy; cases hy
  | ok q =>
    rw [q0] at hy
    simp only [Py.ok_bind] at hy ⊢
    cases z0 : FloatOps.round q with
    | error e => rw [z0] at hy; cases hy
    | ok z =>
      rw [z0] at hy
      simp only [Py.ok_bind] at hy ⊢
      cases q1 : FloatOps.div (FloatOps.ofInt x.w) f with
      | error e => rw [q1] at hx; cases hx
      | ok q' =>
        rw [q1] at hx
        simp only [Py.ok_bind] at hx ⊢
        cases z1 : FloatOps.round q' with
        | error e => rw [z1] at hx; cases hx
        | ok z' =>
          rw [z1] at hx
          simp only [Py.ok_bind] at hx ⊢
          split_ifs at hy with c1
          split_ifs at hx with c2
          injection hy with hy
          injection hx with hx
          unfold resampleCols resampleRows
          rw [if_neg (by omega)]
          simp only [Py.ok_bind]
          rw [if_neg (by simp only [Arr.tab_h]; omega)]
          exact ⟨_, rfl, hy, hx⟩

/-- **C59.**  `run` with `fourier_downsample`: the frames of an `n × n` grid have
the size of the file.  (This is the hypothesis `SavesAs` of the theorems about
`run` and `run2`.) -/
theorem C59_run_saves {β : Type} [FloatOps ℝ] (E : Env ℝ β) (hE : E.downsample = downsampleCell) (f : ℝ) (n ns : ℕ)
    (n0 : 0 < n) (h : saveDim n f = .ok ns) (ns0 : 0 < ns) : SavesAs E f n ns where
  dim := h
  down := by
    intro hf A h1 h2
    obtain ⟨B, hB, b1, b2⟩ := C59_succeeds A f hf (by omega) (by omega) (by rw [h1]; exact h) (by rw [h2]; exact h)
      ns0 ns0
    refine ⟨B, ?_, b1, b2⟩
    rw [hE]
    simp only [downsampleCell, hB, Py.ok_bind, Py.pure_eq]

end C59

section exact
attribute [local instance] exactOps

theorem save_8_3 : saveDim 8 (3 : ℝ) = .ok 3 := by
  simp only [saveDim, downsampling, FloatOps.eq, FloatOps.ofInt, FloatOps.div, FloatOps.round, roundEven]
  norm_num
  rfl

/-- an 8 × 8 grid and the factor 3: the file has 3 × 3 points -/
example : ∃ B, fourier_downsample (Arr.tab 8 8 fun i j => (i * j : ℝ)) (3 : ℝ) = .ok B ∧ B.h = 3 ∧ B.w = 3 :=
  C59_succeeds _ _ (by simp [downsampling, FloatOps.eq, FloatOps.ofInt]) (by simp) (by simp) save_8_3 save_8_3
    (by norm_num) (by norm_num)

/-- a whole run of the equations of `model.py` with downsampled frames: 400 steps
on an 8 × 8 grid, recorded on 3 × 3 points -/
example : GoodArgs { physEnv with downsample := downsampleCell } numpyBackend { physArgs with downsample_factor := 3 }
    ⟨fun _ => none, []⟩ 3 :=
  { phys_good ⟨fun _ => none, []⟩ rfl with
    saves := C59_run_saves _ rfl _ _ _ (by norm_num [physArgs]) save_8_3 (by norm_num) }

example : SavesAs { physEnv with downsample := downsampleCell } (3 : ℝ) 8 3 :=
  C59_run_saves _ rfl _ _ _ (by norm_num) save_8_3 (by norm_num)

/-! ### C78: what downsampled frames contain -/

/-- **C78.**  Downsampling preserves the mean of the field. -/
theorem C78_mean {α : Type} [FloatOps α] (x B : Arr ℝ) (f : α) (h : fourier_downsample x f = .ok B) :
    Spec.mean B.h B.w B.at' = Spec.mean x.h x.w x.at' := by
  unfold fourier_downsample at h
  cases q0 : roundedLength x.h f with
  | error e => rw [q0] at h; cases h
  | ok z =>
    cases q1 : roundedLength x.w f with
    | error e => rw [q0, q1] at h; cases h
    | ok z' =>
      rw [q0, q1] at h
      simp only [Py.ok_bind] at h
      unfold resampleCols resampleRows at h
      split_ifs at h with c1
      · cases h
      · simp only [Py.ok_bind] at h
        split_ifs at h with c2
        injection h with h
        subst h
        rw [not_or] at c1 c2
        simp only [Arr.tab_h] at c2
        have hw : 0 < x.w := by omega
        have hh : 0 < x.h := by omega
        have hz : 0 < z.toNat := by omega
        have hz' : 0 < z'.toNat := by omega
        generalize z.toNat = ny at *
        generalize z'.toNat = nx at *
        simp only [Spec.mean, Arr.tab_h, Arr.tab_w]
        have e1 : ∀ j ∈ Finset.range nx, ∀ i ∈ Finset.range ny,
            (Arr.tab ny nx fun i j => resample1 x.h ny (fun m => (Arr.tab x.h nx fun i j =>
              resample1 x.w nx (fun n => x.at' i n) j).at' m j) i).at' i j
            = resample1 x.h ny (fun m => (Arr.tab x.h nx fun i j =>
              resample1 x.w nx (fun n => x.at' i n) j).at' m j) i := by
          intro j hj i hi
          rw [Arr.tab_at' _ _ _ (Finset.mem_range.1 hi) (Finset.mem_range.1 hj)]
        rw [Finset.sum_comm, Finset.sum_congr rfl fun j hj => Finset.sum_congr rfl fun i hi => e1 j hj i hi]
        have nyR : (ny : ℝ) ≠ 0 := by exact_mod_cast hz.ne'
        have nxR : (nx : ℝ) ≠ 0 := by exact_mod_cast hz'.ne'
        have hR : (x.h : ℝ) ≠ 0 := by exact_mod_cast hh.ne'
        have wR : (x.w : ℝ) ≠ 0 := by exact_mod_cast hw.ne'
        have e2 : ∀ j ∈ Finset.range nx, ∑ i ∈ Finset.range ny, resample1 x.h ny (fun m => (Arr.tab x.h nx fun i j =>
              resample1 x.w nx (fun n => x.at' i n) j).at' m j) i
            = (ny / x.h : ℝ) * ∑ m ∈ Finset.range x.h, resample1 x.w nx (fun n => x.at' m n) j := by
          intro j hj
          have := resample1_mean x.h ny hh hz fun m => (Arr.tab x.h nx fun i j =>
              resample1 x.w nx (fun n => x.at' i n) j).at' m j
          rw [div_eq_div_iff nyR hR] at this
          rw [Finset.sum_congr rfl fun m hm => Arr.tab_at' x.h nx _ (Finset.mem_range.1 hm) (Finset.mem_range.1 hj)]
            at this
          field_simp
          linarith
        rw [Finset.sum_congr rfl e2, ← Finset.mul_sum, Finset.sum_comm]
        have e3 : ∀ m ∈ Finset.range x.h, ∑ j ∈ Finset.range nx, resample1 x.w nx (fun n => x.at' m n) j
            = (nx / x.w : ℝ) * ∑ n ∈ Finset.range x.w, x.at' m n := by
          intro m _
          have := resample1_mean x.w nx hw hz' fun n => x.at' m n
          rw [div_eq_div_iff nxR wR] at this
          field_simp
          linarith
        rw [Finset.sum_congr rfl e3, ← Finset.mul_sum]
        field_simp

/-- **C78.**  A field that consists of waves resolved by both grids (at most `D`
periods per box in each direction, `2 D` less than the number of points of the
simulation and at most the number of stored points, which must not be 0) is
recorded exactly: the stored values are the values of the field at the points of
the coarser grid. -/
theorem C78_resolved {α : Type} [FloatOps α] (F : ℝ → ℝ → ℝ) (D n : ℕ) (hx : ∀ s, TrigPoly D (F s)) (hy : ∀ t, TrigPoly D fun s => F s t)
    (f : α) (hf : downsampling f = true) (ns : ℕ) (h : saveDim n f = .ok ns) (h1 : 2 * D < n)
    (h0 : 0 < ns) (h2 : 2 * D ≤ ns) :
    fourier_downsample (Arr.tab n n fun i j => F (i / n) (j / n)) f
      = .ok (Arr.tab ns ns fun i j => F (i / ns) (j / ns)) := by
  have h' := h
  unfold saveDim at h
  simp only [hf, if_true] at h
  have hr : roundedLength n f = .ok (ns : ℤ) := by
    unfold roundedLength
    cases q0 : FloatOps.div (FloatOps.ofInt n) f with
    | error e => rw [q0] at h; cases h
    | ok q =>
      rw [q0] at h
      simp only [Py.ok_bind] at h ⊢
      cases z0 : FloatOps.round q with
      | error e => rw [z0] at h; cases h
      | ok z =>
        rw [z0] at h
        simp only [Py.ok_bind] at h
        split_ifs at h
        injection h with h
        rw [← h, Int.toNat_of_nonneg (by omega)]
  unfold fourier_downsample
  simp only [Arr.tab_h, Arr.tab_w, hr, Py.ok_bind]
  unfold resampleCols resampleRows
  rw [if_neg (by simp only [Arr.tab_w]; omega)]
  simp only [Py.ok_bind]
  rw [if_neg (by simp only [Arr.tab_h]; omega)]
  simp only [Arr.tab_h, Arr.tab_w, Int.toNat_natCast]
  congr 1
  refine Arr.tab_congr rfl rfl fun i j hi hj => ?_
  rw [resample1_resolved n ns D h1 h0 h2 (fun s => F s (j / ns)) (hy _)]
  intro m hm
  rw [Arr.tab_at' _ _ _ hm hj]
  exact resample1_resolved n ns D h1 h0 h2 (F (m / n)) (hx _) _
    (fun k hk => by rw [Arr.tab_at' _ _ _ hm hk]) j

theorem trigPoly_demo (c : ℝ) : TrigPoly 1 fun t => c * Real.cos (2 * Real.pi * t) := by
  refine ⟨fun k => if k = 1 then c else 0, fun _ => 0, fun t => ?_⟩
  rw [Finset.sum_range_succ, Finset.sum_range_one]
  simp

/-- one wave in each direction on an 8 × 8 grid, recorded on 3 × 3 points -/
example : fourier_downsample (Arr.tab 8 8 fun i j =>
      Real.cos (2 * Real.pi * (i / (8 : ℕ))) * Real.cos (2 * Real.pi * (j / (8 : ℕ)))) (3 : ℝ)
    = .ok (Arr.tab 3 3 fun i j => Real.cos (2 * Real.pi * (i / (3 : ℕ))) * Real.cos (2 * Real.pi * (j / (3 : ℕ)))) :=
  C78_resolved (fun s t => Real.cos (2 * Real.pi * s) * Real.cos (2 * Real.pi * t)) 1 8
    (fun s => trigPoly_demo _) (fun t => by simpa only [mul_comm] using trigPoly_demo (Real.cos (2 * Real.pi * t))) 3
    (by simp [downsampling, FloatOps.eq, FloatOps.ofInt]) 3 save_8_3 (by norm_num) (by norm_num) (by norm_num)

/-- the same wave recorded on 2 × 2 points, where it is at the Nyquist frequency -/
example : fourier_downsample (Arr.tab 8 8 fun i j =>
      Real.cos (2 * Real.pi * (i / (8 : ℕ))) * Real.cos (2 * Real.pi * (j / (8 : ℕ)))) (4 : ℝ)
    = .ok (Arr.tab 2 2 fun i j => Real.cos (2 * Real.pi * (i / (2 : ℕ))) * Real.cos (2 * Real.pi * (j / (2 : ℕ)))) :=
  C78_resolved (fun s t => Real.cos (2 * Real.pi * s) * Real.cos (2 * Real.pi * t)) 1 8
    (fun s => trigPoly_demo _) (fun t => by simpa only [mul_comm] using trigPoly_demo (Real.cos (2 * Real.pi * t))) 4
    (by simp [downsampling, FloatOps.eq, FloatOps.ofInt]) 2 (by
      simp only [saveDim, downsampling, FloatOps.eq, FloatOps.ofInt, FloatOps.div, FloatOps.round, roundEven]
      norm_num
      rfl) (by norm_num) (by norm_num) (by norm_num)

end exact

/-! ### C60: `mean_downsample2x` -/

section C60
variable {K : Type} [Field K]

/-- **C60.**  For even sizes (of any number of axes after the first) every
output value is the mean of its `2 × ... × 2` block. -/
theorem C60_block_means (x : Nd K) (b : ℕ) (ns : List ℕ) (h : x.shape = b :: ns.map (2 * ·)) :
    ∃ y, mean_downsample2x x = .ok y ∧ y.shape = b :: ns ∧
      ∀ p r, p < b → InRange ns r → y.get (p :: r) = blockMean r fun q => x.get (p :: q) := by
  obtain ⟨y, h1, h2, h3⟩ := meanLoop_even ns x [b] h
  refine ⟨y, ?_, h2, fun p r hp hr => h3 [p] r (.cons hp .nil) hr⟩
  rw [← h1]
  unfold mean_downsample2x
  simp [rank, h]

/-- **C60** for the usual case of a stack of `2m × 2n` images. -/
theorem C60_images (x : Nd K) (b m n : ℕ) (h : x.shape = [b, 2 * m, 2 * n]) :
    ∃ y, mean_downsample2x x = .ok y ∧ y.shape = [b, m, n] ∧ ∀ p i j, p < b → i < m → j < n →
      y.get [p, i, j] = (x.get [p, 2 * i, 2 * j] + x.get [p, 2 * i, 2 * j + 1] + x.get [p, 2 * i + 1, 2 * j]
        + x.get [p, 2 * i + 1, 2 * j + 1]) / 4 := by
  obtain ⟨y, h1, h2, h3⟩ := C60_block_means x b [m, n] (by simpa using h)
  refine ⟨y, h1, h2, fun p i j hp hi hj => ?_⟩
  rw [h3 p [i, j] hp (.cons hi (.cons hj .nil))]
  simp only [blockMean, blockSum, List.length_cons, List.length_nil]
  norm_num
  ring

/-- **C60.**  The mean of each image is unchanged. -/
theorem C60_mean (x y : Nd K) (b : ℕ) (ns : List ℕ) (h : x.shape = b :: ns.map (2 * ·))
    (hy : mean_downsample2x x = .ok y) (p : ℕ) (hp : p < b) :
    meanOver ns (fun r => y.get (p :: r)) = meanOver (ns.map (2 * ·)) fun r => x.get (p :: r) := by
  obtain ⟨y', h1, h2, h3⟩ := C60_block_means x b ns h
  rw [hy] at h1
  injection h1 with h1
  subst h1
  unfold meanOver
  have hpow : ∀ r, InRange ns r → y.get (p :: r) = blockSum r (fun q => x.get (p :: q)) / 2 ^ ns.length := by
    intro r hr
    rw [h3 p r hp hr, blockMean, hr.length]
  rw [total_congr hpow, total_div, total_blockSum]
  have : (((ns.map (2 * ·)).prod : ℕ) : K) = 2 ^ ns.length * (ns.prod : K) := by
    clear h h2 h3 hpow
    induction ns with
    | nil => simp
    | cons a s ih => simp only [List.map_cons, List.prod_cons, Nat.cast_mul, ih, List.length_cons, pow_succ]; push_cast; ring
  rw [this, div_div]

/-- **C60.**  Odd sizes from 5 on are rejected with `ValueError` (here: the first
odd axis, after any number of even ones, of arrays of any rank). -/
theorem C60_odd_rejected_partial (x : Nd K) (b : ℕ) (ns : List ℕ) (n : ℕ) (post : List ℕ)
    (h : x.shape = b :: (ns.map (2 * ·) ++ n :: post)) (hn : n % 2 = 1) (h5 : 5 ≤ n) :
    mean_downsample2x x = .error .valueError := by
  have := meanLoop_odd n hn h5 post ns x [b] (by simpa using h)
  rw [← this]
  unfold mean_downsample2x
  simp [rank, h]

/-- **C60 is violated for size 3**: the two halves have 2 and 1 columns and are
combined by broadcasting, no error is raised and the mean changes. -/
theorem C60_size_three_violated (b m : ℕ) (x : Nd K) (h : x.shape = [b, 2 * m, 3]) :
    ∃ y, mean_downsample2x x = .ok y ∧ y.shape = [b, m, 2] := by
  obtain ⟨x1, h1, s1, -⟩ := halve_even x [b] [3] m h
  unfold mean_downsample2x
  simp only [rank, h, List.length_cons, List.length_nil]
  rw [show 0 + 1 + 1 + 1 - 1 = 1 + 1 from rfl, meanLoop_succ, h]
  rw [if_neg (by simp)]
  have e1 : halve x 1 = .ok x1 := h1
  rw [e1]
  simp only [Py.ok_bind]
  rw [show (1 : ℕ) = 0 + 1 from rfl, meanLoop_succ, s1]
  rw [if_neg (by simp)]
  have e2 : bshape (x1.slice 2 0 2).shape (x1.slice 2 1 2).shape = some [b, m, 2] := by
    have t0 : stepLen 0 2 3 = 2 := rfl
    have t1 : stepLen 1 2 3 = 1 := rfl
    have t2 : Arr.bdim 2 1 = some 2 := rfl
    simp only [slice, s1, List.singleton_append, List.modify_succ_cons, List.modify_zero_cons, bshape, Arr.bdim_self,
      t0, t1, t2]
  have e3 : ∃ y, halve x1 2 = .ok y ∧ y.shape = [b, m, 2] := by
    unfold halve Nd.zip
    rw [e2]
    exact ⟨_, rfl, rfl⟩
  obtain ⟨y, e4, e5⟩ := e3
  exact ⟨y, by show (halve x1 2 >>= fun y => meanLoop 3 0 y) = _; rw [e4]; rfl, e5⟩

end C60

/-- a 2 × 4 × 6 array -/
def demoStack : Nd ℚ := ⟨[2, 4, 6], fun idx => ((idx.getD 0 0 + 3 * idx.getD 1 0 * idx.getD 2 0 : ℕ) : ℚ)⟩

example : ∃ y, mean_downsample2x demoStack = .ok y ∧ y.shape = [2, 2, 3] :=
  let ⟨y, h1, h2, _⟩ := C60_images demoStack 2 2 3 rfl
  ⟨y, h1, h2⟩

example : mean_downsample2x (⟨[2, 4, 7], fun _ => 1⟩ : Nd ℚ) = .error .valueError :=
  C60_odd_rejected_partial _ 2 [2] 7 [] rfl rfl (by norm_num)

/-- a row of three values 0, 0, 3 (mean 1) becomes 0, 3/2 (mean 3/4) -/
theorem C60_mean_violated : ∃ x y : Nd ℚ, x.shape = [1, 3] ∧ mean_downsample2x x = .ok y ∧ y.shape = [1, 2] ∧
    meanOver [3] (fun r => x.get (0 :: r)) = 1 ∧ meanOver [2] (fun r => y.get (0 :: r)) = 3 / 4 := by
  refine ⟨⟨[1, 3], fun idx => if idx = [0, 2] then 3 else 0⟩, _, rfl, rfl, rfl, ?_, ?_⟩
  · norm_num [meanOver, total, Finset.sum_range_succ]
  · norm_num [meanOver, total, Finset.sum_range_succ, bindex, Arr.bidx, slice, Nd.map, stepLen]

/-! ### C61: `median_downsampleNx` -/

section C61
variable {K : Type} [Field K] [LinearOrder K]

/-- what `median_downsampleNx` should return for images: the medians of the `k × k` blocks -/
def IsBlockMedian (k : ℕ) (x y : Nd K) (b m n : ℕ) : Prop :=
  y.shape = [b, m, n] ∧ ∀ p i j, p < b → i < m → j < n →
    y.get [p, i, j] = median ((List.range k).flatMap fun s => (List.range k).map fun t => x.get [p, k * i + s, k * j + t])

/-- **C61 is violated**: the function returns its argument unchanged, whatever
the scale. -/
theorem C61_returns_input_violated (x : Nd K) (k : ℕ) (hx : x.rank ≠ 0) :
    ∃ y, median_downsampleNx x k = .ok y ∧ Same y x := by
  unfold median_downsampleNx
  rw [if_neg hx]
  simp only [alongAxis_nil, splitShape, List.foldl_nil]
  obtain ⟨y, h1, h2⟩ := reshape_self x
  exact ⟨y, by rw [h1]; rfl, h2⟩

/-- **C61 is violated**: for no scale `k ≥ 2` and no non-empty stack of images is
the result the array of block medians. -/
theorem C61_block_median_violated (x : Nd K) (k b m n : ℕ) (hk : 2 ≤ k) (m0 : 0 < m)
    (h : x.shape = [b, k * m, k * n]) : ¬ ∃ y, median_downsampleNx x k = .ok y ∧ IsBlockMedian k x y b m n := by
  rintro ⟨y, h1, h2⟩
  obtain ⟨y', h3, h4⟩ := C61_returns_input_violated x k (by simp [rank, h])
  rw [h1] at h3
  injection h3 with h3
  subst h3
  have := h2.1.symm.trans (h4.1.trans h)
  simp only [List.cons.injEq, and_true, true_and] at this
  have : 1 * m < k * m := Nat.mul_lt_mul_of_pos_right (by omega) m0
  omega

/-- **C61**, the only case in which it holds: scale 1. -/
theorem C61_scale_one_partial (x : Nd K) (b m n : ℕ) (h : x.shape = [b, m, n]) :
    ∃ y, median_downsampleNx x 1 = .ok y ∧ IsBlockMedian 1 x y b m n := by
  obtain ⟨y, h1, h2, h3⟩ := C61_returns_input_violated x 1 (by simp [rank, h])
  refine ⟨y, h1, h2.trans h, fun p i j hp hi hj => ?_⟩
  rw [h3 _ (by rw [h2, h]; exact .cons hp (.cons hi (.cons hj .nil)))]
  simp [median]

end C61

example : ∃ y, median_downsampleNx demoStack 2 = .ok y ∧ Same y demoStack :=
  C61_returns_input_violated _ _ (by simp [rank, demoStack])

/-! ### C79: `skip_downsampleNx` -/

/-- **C79.**  `skip_downsampleNx(x, k)` returns every `k`-th value along each axis
after the first, starting with index 0: `⌈n / k⌉` values, each of them an entry
of `x` (of any rank, with any kind of entries). -/
theorem C79_every_kth {α : Type} (x : Nd α) (k b : ℕ) (ns : List ℕ) (hk : 1 ≤ k) (h : x.shape = b :: ns) :
    ∃ y, skip_downsampleNx x k = .ok y ∧ y.shape = b :: ns.map (fun n => (n + k - 1) / k) ∧
      ∀ p r, InRange y.shape (p :: r) → InRange x.shape (p :: r.map (k * ·)) ∧
        y.get (p :: r) = x.get (p :: r.map (k * ·)) := by
  obtain ⟨h1, h2⟩ := skipLoop_eq k ns x [b] h
  have hs : ns.map (stepLen 0 k) = ns.map (fun n => (n + k - 1) / k) :=
    List.map_congr_left fun n _ => by unfold stepLen; congr 1; omega
  refine ⟨skipLoop k 1 ns.length x, ?_, by rw [← hs]; exact h1, fun p r hr => ?_⟩
  · unfold skip_downsampleNx
    rw [if_neg (by simp [rank, h]), if_neg (by omega)]
    simp [rank, h]
  · have hsh : (skipLoop k 1 ns.length x).shape = b :: ns.map (stepLen 0 k) := h1
    rw [hsh] at hr
    cases hr with
    | cons hp hr =>
      have hlen : r.length = ns.length := by simpa using hr.length_eq
      refine ⟨?_, h2 [p] r rfl hlen⟩
      rw [h]
      refine .cons hp ?_
      clear h hs h1 h2 hsh hlen
      induction ns generalizing r with
      | nil => cases hr; exact .nil
      | cons n ns ih =>
        cases hr with
        | @cons j _ r _ hj hr =>
          refine .cons ?_ (ih r hr)
          unfold stepLen at hj
          have h3 : k * j + k ≤ k * ((n - 0 + (k - 1)) / k) := by
            rw [← Nat.mul_succ]; exact Nat.mul_le_mul_left _ hj
          have h4 : k * ((n - 0 + (k - 1)) / k) ≤ n - 0 + (k - 1) := Nat.mul_div_le _ _
          show k * j < n
          omega

example : ∃ y, skip_downsampleNx demoStack 4 = .ok y ∧ y.shape = [2, 1, 2] :=
  let ⟨y, h1, h2, _⟩ := C79_every_kth demoStack 4 2 [4, 6] (by norm_num) rfl
  ⟨y, h1, h2⟩

section
attribute [local instance] exactOps

/-- a field on an `8 × 8` grid reduced by the factor 3 -/
example : ∃ B, fourier_downsample (Arr.tab 8 8 fun i j => (i * j : ℝ)) (3 : ℝ) = .ok B ∧
    saveDim 8 (3 : ℝ) = .ok B.h ∧ Spec.mean B.h B.w B.at' = Spec.mean 8 8 (Arr.tab 8 8 fun i j => (i * j : ℝ)).at' := by
  obtain ⟨B, h, -⟩ := C59_succeeds (Arr.tab 8 8 fun i j => (i * j : ℝ)) (3 : ℝ)
    (by simp [downsampling, FloatOps.eq, FloatOps.ofInt]) (by simp) (by simp) save_8_3 save_8_3
    (by norm_num) (by norm_num)
  exact ⟨B, h, (C59_shape _ _ _ (by simp [downsampling, FloatOps.eq, FloatOps.ofInt]) h).1, C78_mean _ _ _ h⟩

end

/-- two frames of `4 × 6` points -/
example := C60_block_means demoStack 2 [2, 3] rfl
example := C61_scale_one_partial demoStack 2 4 6 rfl

example := C60_size_three_violated 2 5 (⟨[2, 10, 3], fun l => (l.sum : ℚ)⟩ : Nd ℚ) rfl

example := C61_block_median_violated (⟨[2, 10, 15], fun l => (l.sum : ℚ)⟩ : Nd ℚ) 5 2 2 3 (by decide) (by decide) rfl

example : ∃ y, mean_downsample2x (⟨[2, 10, 6], fun l => (l.sum : ℚ)⟩ : Nd ℚ) = .ok y ∧
    meanOver [5, 3] (fun r => y.get (1 :: r)) = meanOver [10, 6] fun r => ((1 :: r).sum : ℚ) := by
  obtain ⟨y, hy, -⟩ := C60_block_means (⟨[2, 10, 6], fun l => (l.sum : ℚ)⟩ : Nd ℚ) 2 [5, 3] rfl
  exact ⟨y, hy, C60_mean _ y 2 [5, 3] rfl hy 1 (by decide)⟩

end Verif.Props
