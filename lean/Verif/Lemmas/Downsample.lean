import Verif.Model.Downsample
import Verif.Spec.Downsample
import Mathlib.Tactic.FieldSimp
import Mathlib.Tactic.Ring
import Mathlib.Tactic.LinearCombination

/-!
# Lemmas about `downsample.py`: blocks
-/

set_option linter.unusedSectionVars false

namespace Verif.Downsample

open Spec Nd

variable {K : Type} [Field K]

theorem blockSum_congr {ns r : List ℕ} {f g : List ℕ → K} (hr : InRange ns r)
    (h : ∀ q, InRange (ns.map (2 * ·)) q → f q = g q) : blockSum r f = blockSum r g := by
  induction hr generalizing f g with
  | nil => exact h [] .nil
  | @cons i n r s hi hr ih =>
    simp only [blockSum]
    rw [ih (fun q hq => h (2 * i :: q) (.cons (show 2 * i < 2 * n by omega) hq)),
      ih (fun q hq => h ((2 * i + 1) :: q) (.cons (show 2 * i + 1 < 2 * n by omega) hq))]

theorem blockSum_add (r : List ℕ) (f g : List ℕ → K) :
    blockSum r (fun q => f q + g q) = blockSum r f + blockSum r g := by
  induction r generalizing f g with
  | nil => rfl
  | cons i r ih => simp only [blockSum]; rw [ih, ih]; ring

theorem blockSum_div (r : List ℕ) (f : List ℕ → K) (c : K) :
    blockSum r (fun q => f q / c) = blockSum r f / c := by
  induction r generalizing f with
  | nil => rfl
  | cons i r ih => simp only [blockSum]; rw [ih, ih]; ring

theorem total_add (s : List ℕ) (f g : List ℕ → K) : total s (fun q => f q + g q) = total s f + total s g := by
  induction s generalizing f g with
  | nil => rfl
  | cons n s ih => simp only [total]; rw [← Finset.sum_add_distrib]; exact Finset.sum_congr rfl fun i _ => ih _ _

theorem total_congr {s : List ℕ} {f g : List ℕ → K} (h : ∀ q, InRange s q → f q = g q) : total s f = total s g := by
  induction s generalizing f g with
  | nil => exact h [] .nil
  | cons n s ih =>
    exact Finset.sum_congr rfl fun i hi => ih fun q hq => h _ (.cons (Finset.mem_range.1 hi) hq)

theorem total_div (s : List ℕ) (f : List ℕ → K) (c : K) : total s (fun q => f q / c) = total s f / c := by
  induction s generalizing f with
  | nil => rfl
  | cons n s ih =>
    simp only [total]; rw [Finset.sum_div]; exact Finset.sum_congr rfl fun i _ => ih _

theorem sum_range_two_mul (f : ℕ → K) (n : ℕ) :
    ∑ i ∈ Finset.range (2 * n), f i = ∑ i ∈ Finset.range n, (f (2 * i) + f (2 * i + 1)) := by
  induction n with
  | zero => simp
  | succ n ih =>
    rw [show 2 * (n + 1) = 2 * n + 1 + 1 by ring, Finset.sum_range_succ, Finset.sum_range_succ, ih,
      Finset.sum_range_succ]
    ring

theorem total_blockSum (ns : List ℕ) (f : List ℕ → K) :
    total ns (fun r => blockSum r f) = total (ns.map (2 * ·)) f := by
  induction ns generalizing f with
  | nil => rfl
  | cons n s ih =>
    simp only [List.map_cons, total]
    rw [sum_range_two_mul]
    refine Finset.sum_congr rfl fun i _ => ?_
    simp only [blockSum]
    rw [total_add, ih, ih]

theorem stepLen_even (n : ℕ) : stepLen 0 2 (2 * n) = n ∧ stepLen 1 2 (2 * n) = n := by
  unfold stepLen; omega

theorem bshape_self (s : List ℕ) : bshape s s = some s := by
  induction s with
  | nil => rfl
  | cons n s ih => simp only [bshape, Arr.bdim_self, ih]

theorem bindex_eq {s idx : List ℕ} (h : InRange s idx) : bindex s idx = idx := by
  induction h with
  | nil => rfl
  | @cons i n r s hi hr ih =>
    simp only [bindex, List.zipWith_cons_cons]
    rw [Arr.bidx_lt hi]
    exact congrArg _ ih

theorem modify_append (p : List ℕ) (j : ℕ) (r : List ℕ) (f : ℕ → ℕ) :
    (p ++ j :: r).modify p.length f = p ++ f j :: r := by
  induction p with
  | nil => rfl
  | cons a p ih => simpa using ih

theorem inRange_append {s t p r : List ℕ} (hp : InRange s p) (hr : InRange t r) : InRange (s ++ t) (p ++ r) :=
  List.rel_append hp hr

theorem halve_even (x : Nd K) (pre post : List ℕ) (n : ℕ) (h : x.shape = pre ++ (2 * n) :: post) :
    ∃ y, halve x pre.length = .ok y ∧ y.shape = pre ++ n :: post ∧
      ∀ p j r, InRange pre p → j < n → InRange post r →
        y.get (p ++ j :: r) = (x.get (p ++ (2 * j) :: r) + x.get (p ++ (2 * j + 1) :: r)) / 2 := by
  have e0 : (x.slice pre.length 0 2).shape = pre ++ n :: post := by
    simp only [slice, h, modify_append, (stepLen_even n).1]
  have e1 : (x.slice pre.length 1 2).shape = pre ++ n :: post := by
    simp only [slice, h, modify_append, (stepLen_even n).2]
  refine ⟨⟨pre ++ n :: post, fun idx => ((x.slice pre.length 0 2).get (bindex (pre ++ n :: post) idx)
    + (x.slice pre.length 1 2).get (bindex (pre ++ n :: post) idx)) / 2⟩, ?_, rfl, ?_⟩
  · unfold halve Nd.zip
    rw [e0, e1, bshape_self]
    rfl
  · intro p j r hp hj hr
    have hin : InRange (pre ++ n :: post) (p ++ j :: r) := inRange_append hp (.cons hj hr)
    simp only [bindex_eq hin]
    simp only [slice]
    rw [← hp.length, modify_append, modify_append]
    rw [show 0 + 2 * j = 2 * j by ring, show 1 + 2 * j = 2 * j + 1 by ring]

theorem getD_append (pre : List ℕ) (n : ℕ) (post : List ℕ) : (pre ++ n :: post).getD pre.length 0 = n := by
  simp [List.getD]

theorem meanLoop_succ (i m : ℕ) (x : Nd K) : meanLoop i (m + 1) x = if x.shape.getD i 0 = 1 then .ok x else
    (halve x i >>= fun y => meanLoop (i + 1) m y) := rfl

/-- the loop of `mean_downsample2x` over axes of even length -/
theorem meanLoop_even (ns : List ℕ) : ∀ (x : Nd K) (pre : List ℕ), x.shape = pre ++ ns.map (2 * ·) →
    ∃ y, meanLoop pre.length ns.length x = .ok y ∧ y.shape = pre ++ ns ∧
      ∀ p r, InRange pre p → InRange ns r → y.get (p ++ r) = blockMean r fun q => x.get (p ++ q) := by
  induction ns with
  | nil =>
    intro x pre h
    refine ⟨x, rfl, by simpa using h, fun p r _ hr => ?_⟩
    cases hr
    simp [blockMean, blockSum]
  | cons n ns ih =>
    intro x pre h
    simp only [List.map_cons] at h
    obtain ⟨x1, h1, s1, g1⟩ := halve_even x pre _ n h
    obtain ⟨y, hy, sy, gy⟩ := ih x1 (pre ++ [n]) (by rw [s1]; simp)
    refine ⟨y, ?_, by rw [sy]; simp, ?_⟩
    · simp only [List.length_cons, meanLoop]
      rw [h, getD_append, if_neg (by omega), h1]
      simp only [Py.ok_bind]
      rw [← hy]
      simp
    · intro p r hp hr
      cases hr with
      | @cons j _ r _ hj hr =>
        have hp' : InRange (pre ++ [n]) (p ++ [j]) := inRange_append hp (.cons hj .nil)
        have := gy (p ++ [j]) r hp' hr
        simp only [List.append_assoc, List.singleton_append] at this
        rw [this]
        unfold blockMean
        rw [blockSum_congr (g := fun q => (x.get (p ++ (2 * j) :: q) + x.get (p ++ (2 * j + 1) :: q)) / 2) hr
          (fun q hq => g1 p j q hp hj hq), blockSum_div, blockSum_add]
        simp only [blockSum, List.length_cons, pow_succ]
        rw [div_div, mul_comm (2 : K)]

theorem bdim_odd {n : ℕ} (hn : n % 2 = 1) (h5 : 5 ≤ n) : Arr.bdim (stepLen 0 2 n) (stepLen 1 2 n) = none := by
  unfold Arr.bdim stepLen
  rw [if_neg (by omega), if_neg (by omega), if_neg (by omega)]

theorem bshape_none (pre post post' : List ℕ) {a b : ℕ} (h : Arr.bdim a b = none) :
    bshape (pre ++ a :: post) (pre ++ b :: post') = none := by
  induction pre with
  | nil => simp only [List.nil_append, bshape, h]
  | cons n s ih => simp only [List.cons_append, bshape, ih]; split <;> simp_all

theorem halve_odd (x : Nd K) (pre post : List ℕ) (n : ℕ) (h : x.shape = pre ++ n :: post) (hn : n % 2 = 1)
    (h5 : 5 ≤ n) : halve x pre.length = .error .valueError := by
  unfold halve Nd.zip
  simp only [slice, h, modify_append]
  rw [bshape_none _ _ _ (bdim_odd hn h5)]
  rfl

theorem meanLoop_odd (n : ℕ) (hn : n % 2 = 1) (h5 : 5 ≤ n) (post : List ℕ) (ns : List ℕ) :
    ∀ (x : Nd K) (pre : List ℕ), x.shape = pre ++ ns.map (2 * ·) ++ n :: post →
    meanLoop pre.length (ns.length + (post.length + 1)) x = .error .valueError := by
  induction ns with
  | nil =>
    intro x pre h
    simp only [List.map_nil, List.append_nil] at h
    rw [List.length_nil, Nat.zero_add, meanLoop_succ]
    rw [h, getD_append, if_neg (by omega), halve_odd x pre post n h hn h5]
    rfl
  | cons a ns ih =>
    intro x pre h
    have h' : x.shape = pre ++ (2 * a) :: (ns.map (2 * ·) ++ n :: post) := by rw [h]; simp
    obtain ⟨x1, h1, s1, -⟩ := halve_even x pre _ a h'
    have := ih x1 (pre ++ [a]) (by rw [s1]; simp)
    rw [List.length_cons, show ns.length + 1 + (post.length + 1) = (ns.length + (post.length + 1)) + 1 by ring]
    rw [meanLoop_succ, h', getD_append, if_neg (by omega), h1]
    simp only [Py.ok_bind]
    rw [← this]
    simp

/-! ### skipping -/

theorem skipLoop_eq {α : Type} (k : ℕ) (ns : List ℕ) : ∀ (x : Nd α) (pre : List ℕ), x.shape = pre ++ ns →
    (skipLoop k pre.length ns.length x).shape = pre ++ ns.map (stepLen 0 k) ∧
    ∀ p r : List ℕ, p.length = pre.length → r.length = ns.length →
      (skipLoop k pre.length ns.length x).get (p ++ r) = x.get (p ++ r.map (k * ·)) := by
  induction ns with
  | nil =>
    intro x pre h
    exact ⟨by simpa [skipLoop] using h, fun p r _ hr => by simp [skipLoop, List.length_eq_zero_iff.1 hr]⟩
  | cons n ns ih =>
    intro x pre h
    have hs : (x.slice pre.length 0 k).shape = (pre ++ [stepLen 0 k n]) ++ ns := by
      simp only [slice, h, modify_append]; simp
    obtain ⟨i1, i2⟩ := ih (x.slice pre.length 0 k) (pre ++ [stepLen 0 k n]) hs
    simp only [List.length_append, List.length_singleton] at i1 i2
    refine ⟨?_, ?_⟩
    · simp only [List.length_cons, skipLoop]
      rw [i1]; simp
    · intro p r hp hr
      cases r with
      | nil => simp at hr
      | cons j r =>
        have := i2 (p ++ [j]) r (by simp [hp]) (by simpa using hr)
        simp only [List.append_assoc, List.singleton_append] at this
        simp only [List.length_cons, skipLoop, List.map_cons]
        rw [this]
        simp only [slice]
        rw [← hp, modify_append, Nat.zero_add]

/-! ### medians -/

theorem alongAxis_nil [LinearOrder K] (x : Nd K) : alongAxis x = [] := by
  simp [alongAxis]

end Verif.Downsample
