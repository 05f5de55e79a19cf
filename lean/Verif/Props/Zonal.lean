import Verif.Model.Zonal
import Mathlib.Algebra.BigOperators.Fin
import Mathlib.Algebra.BigOperators.Field
import Mathlib.Algebra.CharZero.Defs
import Mathlib.Tactic.FieldSimp
import Mathlib.Tactic.Ring
import Mathlib.Tactic.NormNum

/-!
# Property theorems C62: the zonal transform

`a.at' i j` is the entry in row `i` (y) and column `j` (x).
-/

set_option linter.unusedSectionVars false

namespace Verif.Props

open Arr

variable {K : Type} [Field K] [CharZero K] [Inhabited K]

/-- sum of column `j` (over y) -/
private theorem sum_get (a : Arr K) (j : Fin a.w) :
    ∑ i, a.get i j = ∑ i ∈ Finset.range a.h, a.at' i j := by
  rw [Finset.sum_range]
  exact Finset.sum_congr rfl fun i _ => by simp [at']

private theorem zonal_eq (a : Arr K) :
    Zonal.zonal_transform a = .ok (tab a.h a.w fun i j =>
      a.at' i j - (∑ i' ∈ Finset.range a.h, a.at' i' j) / (a.h : K)) := by
  unfold Zonal.zonal_transform
  change Arr.zip (· - ·) a a.meanRows = _
  have h1 : bdim a.h a.meanRows.h = some a.h := by
    show bdim a.h 1 = some a.h
    unfold bdim
    by_cases h : a.h = 1 <;> simp [h]
  have h2 : bdim a.w a.meanRows.w = some a.w := bdim_self _
  unfold Arr.zip
  rw [h1, h2]
  show Except.ok _ = Except.ok _
  congr 1
  refine tab_congr rfl rfl fun i j hi hj => ?_
  rw [bidx_lt hi, bidx_lt hj, bidx_lt (show j < a.meanRows.w from hj)]
  congr 1
  have : bidx a.meanRows.h i = 0 := rfl
  rw [this]
  unfold at'
  rw [dif_pos (show 0 < a.meanRows.h from Nat.one_pos), dif_pos (show j < a.meanRows.w from hj)]
  show (∑ i, a.get i ⟨j, hj⟩) / (a.h : K) = _
  rw [sum_get]
  rfl

/-- **C62 (projection).** On every array with at least one row the transform
succeeds, keeps the shape, subtracts from every entry the mean of its column,
leaves every column with mean zero, and applying it again changes nothing. -/
theorem C62_projection (a : Arr K) (hh : 0 < a.h) :
    ∃ r, Zonal.zonal_transform a = .ok r ∧ r.h = a.h ∧ r.w = a.w ∧
      (∀ i j, i < a.h → j < a.w →
        r.at' i j = a.at' i j - (∑ i' ∈ Finset.range a.h, a.at' i' j) / (a.h : K)) ∧
      (∀ j, j < a.w → ∑ i ∈ Finset.range a.h, r.at' i j = 0) ∧
      Zonal.zonal_transform r = .ok r := by
  have h0 : (a.h : K) ≠ 0 := Nat.cast_ne_zero.mpr hh.ne'
  have hz : ∀ j, j < a.w → ∑ i ∈ Finset.range a.h, (tab a.h a.w fun i j =>
      a.at' i j - (∑ i' ∈ Finset.range a.h, a.at' i' j) / (a.h : K)).at' i j = 0 := by
    intro j hj
    rw [Finset.sum_congr rfl fun i hi => tab_at' _ _ _ (Finset.mem_range.mp hi) hj,
      Finset.sum_sub_distrib, Finset.sum_const, Finset.card_range, nsmul_eq_mul,
      mul_div_cancel₀ _ h0, sub_self]
  refine ⟨_, zonal_eq a, rfl, rfl, fun i j hi hj => tab_at' _ _ _ hi hj, hz, ?_⟩
  rw [zonal_eq]
  congr 1
  refine tab_congr rfl rfl fun i j hi hj => ?_
  simp only [tab_h, tab_w] at hi hj ⊢
  rw [hz j hj, zero_div, sub_zero, tab_at' _ _ _ hi hj]

/-- **C62 (fixed points).** A field whose columns all have mean zero is
returned unchanged. -/
theorem C62_fixes_nonzonal (a : Arr K) (ha : ∀ j, j < a.w → ∑ i ∈ Finset.range a.h, a.at' i j = 0) :
    Zonal.zonal_transform a = .ok a := by
  rw [zonal_eq]
  conv_rhs => rw [eq_tab a]
  congr 1
  refine tab_congr rfl rfl fun i j hi hj => ?_
  rw [ha j hj, zero_div, sub_zero]

/-- **C62 (kernel).** A purely zonal field (the same in every row) is sent to
zero. -/
theorem C62_kills_zonal (a : Arr K) (hh : 0 < a.h) (ha : ∀ i j, i < a.h → j < a.w → a.at' i j = a.at' 0 j) :
    Zonal.zonal_transform a = .ok (tab a.h a.w fun _ _ => 0) := by
  have h0 : (a.h : K) ≠ 0 := Nat.cast_ne_zero.mpr hh.ne'
  rw [zonal_eq]
  congr 1
  refine tab_congr rfl rfl fun i j hi hj => ?_
  rw [Finset.sum_congr rfl fun i hi => ha i j (Finset.mem_range.mp hi) hj, Finset.sum_const,
    Finset.card_range, nsmul_eq_mul, mul_div_cancel_left₀ _ h0, ha i j hi hj, sub_self]

/-- **C62 (linearity).** -/
theorem C62_linear (a b : Arr K) (eh : b.h = a.h) (ew : b.w = a.w) (c d : K) :
    ∃ ra rb, Zonal.zonal_transform a = .ok ra ∧ Zonal.zonal_transform b = .ok rb ∧
      Zonal.zonal_transform (tab a.h a.w fun i j => c * a.at' i j + d * b.at' i j)
        = .ok (tab a.h a.w fun i j => c * ra.at' i j + d * rb.at' i j) := by
  refine ⟨_, _, zonal_eq a, zonal_eq b, ?_⟩
  rw [zonal_eq]
  congr 1
  refine tab_congr rfl rfl fun i j hi hj => ?_
  simp only [tab_h, tab_w] at hi hj ⊢
  rw [tab_at' _ _ _ hi hj, tab_at' _ _ _ hi hj, tab_at' _ _ _ (eh ▸ hi) (ew ▸ hj),
    Finset.sum_congr rfl fun i' hi' => tab_at' _ _ _ (Finset.mem_range.mp hi') hj,
    Finset.sum_add_distrib, ← Finset.mul_sum, ← Finset.mul_sum, eh]
  ring

/-- **C62 (translations).** The transform commutes with every periodic
translation of the field. -/
theorem C62_translation (a : Arr K) (hh : 0 < a.h) (hw : 0 < a.w) (s t : Int) :
    ∃ r, Zonal.zonal_transform a = .ok r ∧
      Zonal.zonal_transform (roll a s t) = .ok (roll r s t) := by
  refine ⟨_, zonal_eq a, ?_⟩
  rw [zonal_eq]
  congr 1
  refine tab_congr rfl rfl fun i j hi hj => ?_
  have hlt : ∀ (n : ℕ) (x : Int), 0 < n → (x % (n : Int)).toNat < n := fun n x hn => by
    have h1 := Int.emod_nonneg x (b := (n : Int)) (by omega)
    have h2 := Int.emod_lt_of_pos x (b := (n : Int)) (by omega)
    omega
  have hr : ∀ i j, i < a.h → j < a.w → (roll a s t).at' i j
      = a.at' (((i : Int) - s) % a.h).toNat (((j : Int) - t) % a.w).toNat :=
    fun i j hi hj => tab_at' _ _ _ hi hj
  simp only [roll_h, roll_w, tab_h, tab_w] at hi hj ⊢
  rw [hr i j hi hj, tab_at' _ _ _ (hlt _ _ hh) (hlt _ _ hw)]
  congr 2
  rw [Finset.sum_congr rfl fun i' hi' => hr i' j (Finset.mem_range.mp hi') hj]
  -- both sums run over one full period
  have : NeZero a.h := ⟨hh.ne'⟩
  have key : ∀ g : ℕ → K, ∑ i ∈ Finset.range a.h, g ((((i : Int) - s) % a.h).toNat)
      = ∑ i ∈ Finset.range a.h, g i := by
    intro g
    refine Finset.sum_nbij' (fun i => (((i : Int) - s) % a.h).toNat)
      (fun i => (((i : Int) + s) % a.h).toNat) ?_ ?_ ?_ ?_ ?_
    · exact fun i _ => Finset.mem_range.mpr (hlt _ _ hh)
    · exact fun i _ => Finset.mem_range.mpr (hlt _ _ hh)
    · intro i hi
      have hi := Finset.mem_range.mp hi
      have h1 := Int.emod_nonneg ((i : Int) - s) (b := (a.h : Int)) (by omega)
      have e : ((((i : Int) - s) % a.h).toNat : Int) = ((i : Int) - s) % a.h := Int.toNat_of_nonneg h1
      show (((((((i : Int) - s) % a.h).toNat : ℕ) : Int) + s) % a.h).toNat = i
      rw [e, Int.emod_add_emod, sub_add_cancel, Int.emod_eq_of_lt (by omega) (by omega)]
      rfl
    · intro i hi
      have hi := Finset.mem_range.mp hi
      have h1 := Int.emod_nonneg ((i : Int) + s) (b := (a.h : Int)) (by omega)
      have e : ((((i : Int) + s) % a.h).toNat : Int) = ((i : Int) + s) % a.h := Int.toNat_of_nonneg h1
      show (((((((i : Int) + s) % a.h).toNat : ℕ) : Int) - s) % a.h).toNat = i
      rw [e, Int.emod_sub_emod, add_sub_cancel_right, Int.emod_eq_of_lt (by omega) (by omega)]
      rfl
    · exact fun i _ => rfl
  exact key fun i => a.at' i (((j : Int) - t) % a.w).toNat

/-- **C62 (spectral twin).** `zonal_transform_fourier` is no such twin: it
raises on every argument, also where `zonal_transform` succeeds. -/
theorem C62_fourier_violated (a : Arr K) :
    Zonal.zonal_transform_fourier a = .error .typeError ∧
      ∃ r, Zonal.zonal_transform a = .ok r ∧ r.h = a.h :=
  ⟨rfl, _, zonal_eq a, rfl⟩

/-- A 2 × 2 field that is neither zonal nor of mean zero, and its transform. -/
example : Zonal.zonal_transform (tab 2 2 fun i j => ((i + 3 * j : ℕ) : ℚ))
    = .ok (tab 2 2 fun i _ => if i = 0 then -1 / 2 else 1 / 2) := by
  rw [zonal_eq]
  congr 1
  refine tab_congr rfl rfl fun i j hi hj => ?_
  simp only [tab_h, tab_w] at hi hj ⊢
  simp only [Finset.sum_range_succ, Finset.sum_range_zero]
  rw [tab_at' _ _ _ hi hj, tab_at' _ _ _ (by omega) hj, tab_at' _ _ _ (by omega) hj]
  have : i = 0 ∨ i = 1 := by omega
  rcases this with rfl | rfl <;> push_cast <;> norm_num <;> ring

/-- a `2 × 3` field with a zonal part -/
example := C62_projection (K := ℚ) (tab 2 3 fun i j => (i * j + 1 : ℚ)) (by decide)
/-- a field without a zonal part -/
example := C62_fixes_nonzonal (K := ℚ) (tab 2 3 fun i j => if i = 0 then (j : ℚ) else -j) (by
  intro j hj
  rw [tab_w] at hj
  rw [tab_h, Finset.sum_range_succ, Finset.sum_range_one, tab_at' _ _ _ (by norm_num) hj, tab_at' _ _ _ (by norm_num) hj]
  simp)
/-- a zonal field -/
example := C62_kills_zonal (K := ℚ) (tab 2 3 fun _ j => (j : ℚ)) (by decide) (by
  intro i j hi hj
  rw [tab_h] at hi
  rw [tab_w] at hj
  rw [tab_at' _ _ _ hi hj, tab_at' _ _ _ (by norm_num) hj])
example := C62_linear (K := ℚ) (tab 2 3 fun i j => (i * j + 1 : ℚ)) (tab 2 3 fun i _ => (i : ℚ)) rfl rfl 2 (-1)
example := C62_translation (K := ℚ) (tab 2 3 fun i j => (i * j + 1 : ℚ)) (by decide) (by decide) (-5) 1

end Verif.Props
