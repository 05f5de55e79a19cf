import Verif.Model.Benchmark
import Verif.Props.Stencils
import Verif.Props.Poisson

/-!
# Property theorem C91: the performance comparison compares equal functions
-/

set_option linter.unusedSectionVars false

namespace Verif.Props

open Arr Spec Benchmark

section anyArithmetic
variable {α : Type} [Inhabited α] [Add α] [Sub α] [Mul α] [Div α] [NatCast α] [Pow α ℕ]

private theorem padAt' {h w : ℕ} (f : ZMod h → ZMod w → α) {a b : ℕ} (ha : a < h + 2) (hb : b < w + 2) :
    (tab (h + 2) (w + 2) fun i j => f ((i : ZMod h) - (1 : ℕ)) ((j : ZMod w) - (1 : ℕ))).at' a b
      = f ((a : ZMod h) - (1 : ℕ)) ((b : ZMod w) - (1 : ℕ)) := tab_at' _ _ _ ha hb

/-- **C91 (intrinsic gradient).** With unit spacing the gradient built from
`np.gradient` is `periodic_gradient` along y, bit for bit; it does not depend on
`dx`. -/
theorem C91_intrinsic_gradient (a : Arr α) (dx : α) (h0 : 0 < a.h) (w0 : 0 < a.w) :
    np_instrinsic_gradient a dx = NumpyGradients.periodic_gradient a ((1 : ℕ) : α) := by
  obtain ⟨h, w, f, _, e1, e2, rfl, -⟩ := exists_fields a a rfl rfl
  rw [← e1] at h0; rw [← e2] at w0
  have : NeZero h := ⟨h0.ne'⟩
  have : NeZero w := ⟨w0.ne'⟩
  rw [numpy_periodic_gradient_y]
  unfold np_instrinsic_gradient npGradientRows
  rw [padWrap_ofField]
  simp only [Py.ok_bind, mul_one, tab_h, tab_w]
  simp only [show ¬ (h + 2 < 2) by omega, if_false, Py.ok_bind, Py.pure_eq]
  congr 1
  unfold sl
  simp only [tab_h, tab_w, len_s1m1]
  rw [start_s1m1 _ (by omega), start_s1m1 _ (by omega)]
  refine tab_congr (by omega) (by omega) fun i j hi hj => ?_
  rw [tab_at' _ _ _ (by omega) (by omega)]
  simp only [show ¬ (1 + i = 0) by omega, show ¬ (1 + i = h + 2 - 1) by omega, if_false]
  rw [padAt' f (by omega) (by omega), padAt' f (by omega) (by omega)]
  unfold Spec.gradY
  rw [show (((1 + i + 1 : ℕ) : ZMod h) - ((1 : ℕ) : ZMod h)) = i + 1 by push_cast; ring,
    show (((1 + i - 1 : ℕ) : ZMod h) - ((1 : ℕ) : ZMod h)) = i - 1 by
      rw [Nat.add_sub_cancel_left]; push_cast; ring,
    show (((1 + j : ℕ) : ZMod w) - ((1 : ℕ) : ZMod w)) = j by push_cast; ring]

end anyArithmetic

/-- the numbers drawn by `np.random.rand` lie in `[0, 1)` -/
def Draws (W : World) : Prop := ∀ s n b i j, 0 ≤ W.rnd s n b i j ∧ W.rnd s n b i j < 1

private theorem allclose_refl (a : Arr ℝ) : allclose a a :=
  ⟨rfl, rfl, fun i j _ _ => by rw [sub_self, abs_zero]; positivity⟩

private theorem benchSize_ok {dx : ℝ} {fs : List (String × Fn)} {d : Data} {r : Arr ℝ} {rs : List (Arr ℝ)}
    (h : runKernels dx d fs = .ok (r :: rs)) (hc : ∀ x ∈ rs, allclose r x) :
    benchSize dx fs d = .ok () := by
  unfold benchSize
  rw [h]
  simp only [Py.ok_bind]
  rw [if_pos hc]
  rfl

private theorem benchSizes_ok {dx : ℝ} {fs : List (String × Fn)} {setup : ℕ → Data} {ns : List ℕ}
    (h : ∀ n ∈ ns, benchSize dx fs (setup n) = .ok ()) : benchSizes dx fs setup ns = .ok () := by
  induction ns with
  | nil => rfl
  | cons n ns ih =>
    unfold benchSizes
    rw [h n (by simp)]
    simp only [Py.ok_bind]
    exact ih fun m hm => h m (by simp [hm])

private theorem mem_sizes {n : ℕ} (h : n ∈ sizes) : 0 < n ∧ n ≤ 65536 := by
  simp only [sizes, List.mem_map, List.mem_range] at h
  obtain ⟨k, hk, rfl⟩ := h
  refine ⟨by positivity, ?_⟩
  calc 2 ^ (k + 4) ≤ 2 ^ 16 := Nat.pow_le_pow_right (by norm_num) (by omega)
    _ = 65536 := by norm_num

private theorem mean_draw {W : World} (hW : Draws W) (s : String) {n : ℕ} (hn : 0 < n) (b : Bool) :
    |Spec.mean n n (setup_random_array (W.rnd s n b) n 1000).at'| ≤ 1 / 1000 := by
  have hv : ∀ i ∈ Finset.range n, ∀ j ∈ Finset.range n,
      0 ≤ (setup_random_array (W.rnd s n b) n 1000).at' i j ∧
      (setup_random_array (W.rnd s n b) n 1000).at' i j ≤ 1 / 1000 := by
    intro i hi j hj
    unfold setup_random_array
    rw [tab_at' _ _ _ (Finset.mem_range.mp hi) (Finset.mem_range.mp hj)]
    have := hW s n b i j
    constructor
    · exact div_nonneg this.1 (by norm_num)
    · exact (div_le_div_iff_of_pos_right (by norm_num)).mpr this.2.le
  have hp : (0 : ℝ) < (n : ℝ) * n := by positivity
  unfold Spec.mean
  rw [abs_of_nonneg (div_nonneg (Finset.sum_nonneg fun i hi => Finset.sum_nonneg fun j hj =>
    (hv i hi j hj).1) hp.le), div_le_iff₀ hp]
  calc _ ≤ ∑ _i ∈ Finset.range n, ∑ _j ∈ Finset.range n, (1 / 1000 : ℝ) :=
        Finset.sum_le_sum fun i hi => Finset.sum_le_sum fun j hj => (hv i hi j hj).2
    _ = 1 / 1000 * ((n : ℝ) * n) := by simp; ring

/-! ## C91 -/

/-- **C91.** For every random data, every selection of the four benchmarks and
every number of sizes reached, the comparison of the results succeeds, provided
`dx = 1` if the gradient is benchmarked (and `dx² ≤ 10⁹`). -/
theorem C91_benchmark_passes_partial (W : World) (hW : Draws W) (scale dx : ℝ) (names : List String)
    (hn : ∀ s ∈ names, s ∈ defaultNames) (hdx : "periodic_gradient" ∈ names → dx = 1)
    (hdx2 : dx ^ 2 ≤ 10 ^ 9) : Benchmark.main W scale dx names = .ok () := by
  induction names with
  | nil => rfl
  | cons s names ih =>
    unfold Benchmark.main
    have hs : benchName W dx s = .ok () := by
      have hsz : ∀ n ∈ sizes.take (W.reached s), 0 < n ∧ n ≤ 65536 :=
        fun n h => mem_sizes (List.mem_of_mem_take h)
      have hd := hn s (by simp)
      simp only [defaultNames, List.mem_cons, List.not_mem_nil, or_false] at hd
      rcases hd with rfl | rfl | rfl | rfl
      · have hdx := hdx (by simp)
        subst hdx
        unfold benchName get_function_defs
        simp only [if_true]
        refine benchSizes_ok fun n hn => ?_
        obtain ⟨hn0, -⟩ := hsz n hn
        rw [if_pos (by decide)]
        obtain ⟨r, hr, -⟩ := C01_periodic_gradient_y
          (setup_random_array (W.rnd "periodic_gradient" n false) n 1000) 1 0 (.inl rfl) hn0 hn0
        have h1 := C91_intrinsic_gradient
          (setup_random_array (W.rnd "periodic_gradient" n false) n 1000) 1 hn0 hn0
        have h2 := (C02_backends_identical
          (setup_random_array (W.rnd "periodic_gradient" n false) n 1000) 1).2.2 0 (.inl rfl)
        rw [Nat.cast_one, hr] at h1
        rw [hr] at h2
        refine benchSize_ok (r := r) (rs := [r, r]) ?_ ?_
        · simp [runKernels, Fn.call, hr, h1, h2]
        · simp [allclose_refl]
      · unfold benchName get_function_defs
        rw [if_neg (by decide), if_pos rfl]
        refine benchSizes_ok fun n hn => ?_
        obtain ⟨hn0, -⟩ := hsz n hn
        rw [if_pos (by decide)]
        obtain ⟨r, hr, -⟩ := C01_periodic_laplace
          (setup_random_array (W.rnd "periodic_laplace" n false) n 1000) dx hn0 hn0
        have h2 := (C02_backends_identical
          (setup_random_array (W.rnd "periodic_laplace" n false) n 1000) dx).1
        rw [hr] at h2
        refine benchSize_ok (r := r) (rs := [r]) ?_ ?_
        · simp [runKernels, Fn.call, hr, h2]
        · simp [allclose_refl]
      · unfold benchName get_function_defs
        rw [if_neg (by decide), if_neg (by decide), if_neg (by decide), if_pos rfl]
        refine benchSizes_ok fun n hn => ?_
        obtain ⟨hn0, -⟩ := hsz n hn
        rw [if_neg (by decide)]
        obtain ⟨r, -, -, h1, h2, h3, h4, h5⟩ := C03_all_agree
          (setup_random_array (W.rnd "poisson_bracket" n false) n 1000)
          (setup_random_array (W.rnd "poisson_bracket" n true) n 1000) dx W.mem rfl rfl hn0 hn0
        refine benchSize_ok (r := r) (rs := [r, r, r, r]) ?_ ?_
        · simp [runKernels, Fn.call, h1, h2, h3, h4, h5]
        · simp [allclose_refl]
      · unfold benchName get_function_defs
        rw [if_neg (by decide), if_neg (by decide), if_pos rfl]
        refine benchSizes_ok fun n hn => ?_
        obtain ⟨hn0, hn1⟩ := hsz n hn
        rw [if_pos (by decide)]
        obtain ⟨r, r', h1, h2, e1, e2, e3, e4, hv⟩ := C12_direct_difference
          (setup_random_array (W.rnd "poisson_solvers" n false) n 1000) dx hn0 hn0 hn1 hn1
        refine benchSize_ok (r := r) (rs := [r']) ?_ ?_
        · simp [runKernels, Fn.call, h1, h2]
        · simp only [List.mem_singleton, forall_eq]
          refine ⟨e1.trans e3.symm, e2.trans e4.symm, fun i j hi hj => ?_⟩
          rw [hv i j (e1 ▸ hi) (e2 ▸ hj)]
          have hm := mean_draw hW "poisson_solvers" hn0 false
          have e : ∀ x y : ℝ, x - (x + y) = -y := fun x y => by ring
          rw [e, abs_neg]
          refine le_trans ?_ (le_add_of_nonneg_right (by positivity))
          change |Spec.mean n n _ * dx ^ 2 / 10 ^ 14| ≤ _
          rw [abs_div, abs_mul, abs_of_nonneg (sq_nonneg dx), abs_of_nonneg (by positivity : (0 : ℝ) ≤ 10 ^ 14),
            div_le_iff₀ (by positivity)]
          calc _ ≤ (1 / 1000 : ℝ) * 10 ^ 9 :=
                mul_le_mul hm hdx2 (sq_nonneg dx) (by norm_num)
            _ ≤ _ := by norm_num
    rw [hs]
    simp only [Py.ok_bind]
    exact ih (fun s h => hn s (by simp [h])) (fun h => hdx (by simp [h]))

example := C91_benchmark_passes_partial
  ⟨fun _ _ _ i j => 1 / (i + j + 2), fun _ => 9, fun _ _ => 0⟩
  (fun s n b i j => by
    have : (0 : ℝ) < i + j + 2 := by positivity
    refine ⟨by positivity, ?_⟩
    change 1 / ((i : ℝ) + j + 2) < 1
    rw [div_lt_one this]
    have : (0 : ℝ) ≤ i := by positivity
    have : (0 : ℝ) ≤ j := by positivity
    linarith)
  1000 1 defaultNames (fun _ h => h) (fun _ => rfl) (by norm_num)

/-- **C91 (violated).** For every spacing with `|1/dx - 1| ≥ 1/1000` the
benchmark of the gradient raises, for every random data in which the y
neighbours of some point of the first array differ by at least one half: the
variant based on `np.gradient` ignores `dx`. -/
theorem C91_benchmark_violated (W : World) (scale dx : ℝ) (hdx : 1 / 1000 ≤ |1 / dx - 1|)
    (names : List String) (hr : 1 ≤ W.reached "periodic_gradient") {i j : ℕ} (hi : i < 16) (hj : j < 16)
    (hd : 1 / 2 ≤ |W.rnd "periodic_gradient" 16 false (up 16 i) j
      - W.rnd "periodic_gradient" 16 false (down 16 i) j|) :
    Benchmark.main W scale dx ("periodic_gradient" :: names) = .error perfplotError := by
  have hb : benchName W dx "periodic_gradient" = .error perfplotError := by
    unfold benchName get_function_defs
    simp only [if_true]
    obtain ⟨k, hk⟩ : ∃ k, W.reached "periodic_gradient" = k + 1 := ⟨_, (Nat.sub_add_cancel hr).symm⟩
    rw [hk, show sizes = 16 :: sizes.tail from rfl, List.take_succ_cons]
    unfold benchSizes
    rw [if_pos (by decide)]
    set a := setup_random_array (W.rnd "periodic_gradient" 16 false) 16 1000 with ha
    have hah : a.h = 16 := rfl
    have haw : a.w = 16 := rfl
    have ph : 0 < a.h := by rw [hah]; norm_num
    have pw : 0 < a.w := by rw [haw]; norm_num
    obtain ⟨r, hr, rh, rw', rv⟩ := C01_periodic_gradient_y a dx 0 (.inl rfl) ph pw
    obtain ⟨q, hq, qh, qw, qv⟩ := C01_periodic_gradient_y a ((1 : ℕ) : ℝ) 0 (.inl rfl) ph pw
    have h1 := C91_intrinsic_gradient a dx ph pw
    have h2 := (C02_backends_identical a dx).2.2 0 (.inl rfl)
    rw [hq] at h1
    rw [hr] at h2
    have hk : runKernels dx (.one a)
        [("np_periodic_gradient", .unary fun a dx => NumpyGradients.periodic_gradient a dx),
          ("np_instrinsic_gradient", .unary np_instrinsic_gradient),
          ("nb_periodic_gradient", .unary fun a dx => NumbaGradients.periodic_gradient a dx)]
        = .ok [r, q, r] := by
      simp [runKernels, Fn.call, hr, h1, h2]
    unfold benchSize
    rw [hk]
    simp only [Py.ok_bind]
    rw [if_neg]
    · rfl
    · intro H
      obtain ⟨-, -, hv⟩ := H q (by simp)
      have hc := hv i j (by rw [rh, hah]; exact hi) (by rw [rw', haw]; exact hj)
      rw [rv i j hi hj, qv i j hi hj] at hc
      have hu : up 16 i < 16 := Nat.mod_lt _ (by norm_num)
      have hl : down 16 i < 16 := Nat.mod_lt _ (by norm_num)
      simp only [hah] at hc
      rw [ha] at hc
      unfold setup_random_array at hc
      rw [tab_at' _ _ _ hu hj, tab_at' _ _ _ hl hj] at hc
      generalize W.rnd "periodic_gradient" 16 false (up 16 i) j = x at hc hd
      generalize W.rnd "periodic_gradient" 16 false (down 16 i) j = y at hc hd
      have e1 : (x / 1000 - y / 1000) / (((2 : ℕ) : ℝ) * dx) - (x / 1000 - y / 1000) / (((2 : ℕ) : ℝ) * ((1 : ℕ) : ℝ))
          = (x - y) / 2000 * (1 / dx - 1) := by
        push_cast
        rw [← div_div]
        ring
      have e2 : (x / 1000 - y / 1000) / (((2 : ℕ) : ℝ) * ((1 : ℕ) : ℝ)) = (x - y) / 2000 := by
        push_cast; ring
      rw [e1, e2, abs_mul, abs_div, abs_of_pos (by norm_num : (0 : ℝ) < 2000)] at hc
      have h3 : |x - y| / 2000 * (1 / 1000) ≤ |x - y| / 2000 * |1 / dx - 1| :=
        mul_le_mul_of_nonneg_left hdx (by positivity)
      have h4 : |x - y| / 2000 * (1 / 1000) ≤ 1 / 10 ^ 8 + 1 / 10 ^ 5 * (|x - y| / 2000) := h3.trans hc
      norm_num at h4
      linarith
  unfold Benchmark.main
  rw [hb]
  rfl

example := C91_benchmark_violated
  ⟨fun _ _ _ i _ => if i = 1 then 9 / 10 else 0, fun _ => 3, fun _ _ => 0⟩ 1000 (1 / 2) (by norm_num)
  ["periodic_laplace"] (by decide) (i := 0) (j := 3) (by norm_num) (by norm_num)
  (by norm_num [up, down])

/-- **C91 (unknown name).** A name that is not one of the four raises
`TypeError`. -/
theorem C91_unknown_name (W : World) (scale dx : ℝ) (s : String) (names : List String)
    (hs : s ∉ defaultNames) : Benchmark.main W scale dx (s :: names) = .error .typeError := by
  simp only [defaultNames, List.mem_cons, List.not_mem_nil, or_false, not_or] at hs
  unfold Benchmark.main benchName get_function_defs
  simp [hs.1, hs.2.1, hs.2.2.1, hs.2.2.2]

example := C91_unknown_name ⟨fun _ _ _ _ _ => 0, fun _ => 9, fun _ _ => 0⟩ 1000 1 "gradient" []
  (by decide)

example := Verif.Props.C91_intrinsic_gradient (tab 5 4 fun i j => (i * i + 3 * j : ℝ)) (1 / 2) (by decide) (by decide)

end Verif.Props
