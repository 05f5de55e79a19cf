import Verif.Model.Colormap
import Verif.Spec.Colormap
import Verif.Lemmas.Rel
import Verif.Lemmas.Helpers

/-!
# Lemmas: the colour map
-/

set_option linter.unusedSectionVars false

namespace Verif.Colormap

open H5IO

variable {K : Type} [Field K] [LinearOrder K] [IsStrictOrderedRing K] [FloorRing K]

/-- numbers whose size lies far inside the range of normal numbers -/
theorem normal_of {y : K} (h1 : 1 / 2 ^ 100 ≤ |y|) (h2 : |y| ≤ 2 ^ 100) :
    y = 0 ∨ ((1 : K) / 2 ^ 1021 ≤ |y| ∧ |y| ≤ 2 ^ 1022) :=
  Or.inr ⟨le_trans (one_div_pow_le_one_div_pow_of_le (by norm_num) (by norm_num)) h1,
    le_trans h2 (pow_le_pow_right₀ (by norm_num) (by norm_num))⟩

theorem normal_int (z : ℤ) (h : |z| ≤ 2 ^ 50) : (z : K) = 0 ∨ ((1 : K) / 2 ^ 1021 ≤ |(z : K)| ∧ |(z : K)| ≤ 2 ^ 1022) := by
  by_cases c : z = 0
  · left; rw [c]; exact Int.cast_zero
  · have h1 : (1 : ℤ) ≤ |z| := Int.one_le_abs c
    have h1' : (1 : K) ≤ |(z : K)| := by exact_mod_cast h1
    have h2' : |(z : K)| ≤ 2 ^ 50 := by exact_mod_cast h
    refine normal_of (le_trans ?_ h1') (le_trans h2' ?_) <;> norm_num

section
variable {fl : K → K} (hf : Spec.RelError fl)
include hf

theorem rel_int (z : ℤ) (h : |z| ≤ 2 ^ 50) : Rel (2 / 2 ^ 53) (fl z) (z : K) := Rel.of_fl hf _ (normal_int z h)

/-- the product whose integer part is the number of colours of a segment -/
def points (fl : K → K) (a b vals : ℤ) : K := fl (fl (fl ((b : K) / 100) - fl ((a : K) / 100)) * fl vals)

theorem rel_hundredth (z : ℤ) (h0 : 0 ≤ z) (h : z ≤ 100) : |fl ((z : K) / 100) - (z : K) / 100| ≤ 2 / 2 ^ 53 := by
  have hz : (0 : K) ≤ z := by exact_mod_cast h0
  have hz' : (z : K) ≤ 100 := by exact_mod_cast h
  have h1 : Rel (2 / 2 ^ 53) (fl ((z : K) / 100)) ((z : K) / 100) := by
    refine Rel.of_fl hf _ ?_
    by_cases c : z = 0
    · left; rw [c]; simp
    · have h1 : (1 : K) ≤ z := by
        have : (1 : ℤ) ≤ z := by omega
        exact_mod_cast this
      refine normal_of ?_ ?_ <;> rw [abs_of_nonneg (by positivity)]
      · refine le_trans (b := (1 : K) / 100) (by norm_num) (by gcongr)
      · refine le_trans (b := (1 : K)) ?_ (by norm_num)
        rw [div_le_one (by norm_num)]; exact hz'
  unfold Rel at h1
  refine le_trans h1 ?_
  rw [abs_of_nonneg (by positivity)]
  refine mul_le_of_le_one_right (by positivity) ?_
  rw [div_le_one (by norm_num)]; exact hz'

theorem rel_points (a b vals : ℤ) (h0 : 0 ≤ a) (hab : a < b) (h : b ≤ 100) (hv : |vals| ≤ 10 ^ 9) :
    Rel (410 / 2 ^ 53) (points fl a b vals) (((b : K) - a) / 100 * vals) := by
  have ha := rel_hundredth hf a h0 (by omega)
  have hb := rel_hundredth hf b (by omega) h
  have hd : (1 : K) ≤ (b : K) - a := by
    have : (1 : ℤ) ≤ b - a := by omega
    exact_mod_cast this
  have hd2 : (b : K) - a ≤ 100 := by
    have : b - a ≤ 100 := by omega
    exact_mod_cast this
  have hp : 0 < ((b : K) - a) / 100 := by positivity
  have h1 : Rel (400 / 2 ^ 53) (fl ((b : K) / 100) - fl ((a : K) / 100)) (((b : K) - a) / 100) := by
    unfold Rel
    rw [abs_of_pos hp]
    have e : fl ((b : K) / 100) - fl ((a : K) / 100) - ((b : K) - a) / 100
        = (fl ((b : K) / 100) - (b : K) / 100) - (fl ((a : K) / 100) - (a : K) / 100) := by ring
    rw [e]
    refine le_trans (abs_sub _ _) ?_
    have : (400 : K) / 2 ^ 53 * (((b : K) - a) / 100) = ((b : K) - a) * (4 / 2 ^ 53) := by ring
    rw [this]
    have : (4 : K) / 2 ^ 53 ≤ ((b : K) - a) * (4 / 2 ^ 53) := le_mul_of_one_le_left (by positivity) hd
    have e4 : (4 : K) / 2 ^ 53 = 2 / 2 ^ 53 + 2 / 2 ^ 53 := by ring
    linarith
  have h2 := h1.fl hf (by norm_num) (by
    refine normal_of ?_ ?_ <;> rw [abs_of_pos hp]
    · refine le_trans (b := (1 : K) / 100) (by norm_num) (by gcongr)
    · refine le_trans (b := (1 : K)) ?_ (by norm_num)
      rw [div_le_one (by norm_num)]; exact hd2)
  have h3 := rel_int hf vals (le_trans hv (by norm_num))
  have h4 := (h2.mul h3 (by positivity)).mono (t := 406 / 2 ^ 53) (by norm_num)
  refine (h4.fl hf (by norm_num) ?_).mono (by norm_num)
  by_cases c : vals = 0
  · left; rw [c]; simp
  · have hv1 : (1 : K) ≤ |(vals : K)| := by exact_mod_cast Int.one_le_abs c
    have hv2 : |(vals : K)| ≤ 10 ^ 9 := by exact_mod_cast hv
    refine normal_of ?_ ?_ <;> rw [abs_mul, abs_of_pos hp]
    · refine le_trans (b := (1 : K) / 100 * 1) (by norm_num) ?_
      gcongr
    · refine le_trans (b := (1 : K) * 10 ^ 9) ?_ (by norm_num)
      gcongr
      rw [div_le_one (by norm_num)]; exact hd2

theorem points_close (a b vals : ℤ) (h0 : 0 ≤ a) (hab : a < b) (h : b ≤ 100) (hv : |vals| ≤ 10 ^ 9) :
    |points fl a b vals - ((b : K) - a) / 100 * vals| ≤ 1 / 10 ^ 4 := by
  have h1 := rel_points hf a b vals h0 hab h hv
  unfold Rel at h1
  refine le_trans h1 ?_
  have hd2 : |((b : K) - a) / 100| ≤ 1 := by
    rw [abs_of_nonneg, div_le_one (by norm_num)]
    · have : b - a ≤ 100 := by omega
      exact_mod_cast this
    · have : (0 : ℤ) ≤ b - a := by omega
      have : (0 : K) ≤ (b : K) - a := by exact_mod_cast this
      positivity
  have hv2 : |(vals : K)| ≤ 10 ^ 9 := by exact_mod_cast hv
  rw [abs_mul]
  refine le_trans (b := (410 : K) / 2 ^ 53 * (1 * 10 ^ 9)) ?_ (by norm_num)
  gcongr

theorem points_nonneg (a b vals : ℤ) (h0 : 0 ≤ a) (hab : a < b) (h : b ≤ 100) (hv0 : 0 ≤ vals) (hv : vals ≤ 10 ^ 9) :
    0 ≤ points fl a b vals := by
  have h1 := rel_points hf a b vals h0 hab h (by rwa [abs_of_nonneg hv0])
  have hy : (0 : K) ≤ ((b : K) - a) / 100 * vals := by
    have h2 : (0 : ℤ) ≤ b - a := by omega
    have h3 : (0 : K) ≤ (b : K) - a := by exact_mod_cast h2
    have h4 : (0 : K) ≤ (vals : K) := by exact_mod_cast hv0
    positivity
  unfold Rel at h1
  rw [abs_of_nonneg hy] at h1
  have h2 := (abs_le.1 h1).1
  have h3 : (410 : K) / 2 ^ 53 * (((b : K) - a) / 100 * vals) ≤ 1 * (((b : K) - a) / 100 * vals) :=
    mul_le_mul_of_nonneg_right (by norm_num) hy
  linarith

/-- a computed component of a colour -/
def comp (fl : K → K) (z : ℤ) : K := fl (fl z / fl 256)

theorem rel_comp (z : ℤ) (h1 : 1 ≤ z) (h : z ≤ 255) : Rel (9 / 2 ^ 53) (comp fl z) ((z : K) / 256) := by
  have hz := rel_int hf z (by rw [abs_of_nonneg (by omega)]; omega)
  have h256 := rel_int hf 256 (by norm_num)
  rw [Int.cast_ofNat] at h256
  have hd := (hz.div h256 (by positivity) (by norm_num) (by norm_num)).mono (t := 7 / 2 ^ 53) (by norm_num)
  have h1' : (1 : K) ≤ z := by exact_mod_cast h1
  have h2' : (z : K) ≤ 255 := by exact_mod_cast h
  have := hd.fl hf (by norm_num) (by
    refine normal_of ?_ ?_ <;> rw [abs_of_nonneg (by positivity)]
    · refine le_trans (b := (1 : K) / 256) (by norm_num) (by gcongr)
    · refine le_trans (b := (1 : K)) ?_ (by norm_num)
      rw [div_le_one (by norm_num)]; linarith)
  exact this.mono (by norm_num)

/-- a computed value of `linspace` -/
def linVal (fl : K → K) (a b : K) (n k : ℕ) : K :=
  if fl (fl (b - a) / fl n) = 0 then fl (fl (fl (fl k / fl n) * fl (b - a)) + a)
  else fl (fl (fl k * fl (fl (b - a) / fl n)) + a)

/-- the product added to the start is accurate -/
theorem lin_offset (d : K) (n k : ℕ) (hn : 1 ≤ n) (hn2 : n ≤ 2 ^ 40) (hk : k < n)
    (hd : d = 0 ∨ (1 / 2 ^ 10 ≤ |d| ∧ |d| ≤ 2)) :
    ∃ m, Rel (27 / 2 / 2 ^ 53) m (k * (d / n)) ∧ ∀ a b : K, b - a = d → linVal fl a b n k = fl (m + a) := by
  have hN : Rel (2 / 2 ^ 53) (fl (n : K)) (n : K) := by
    have := rel_int hf (n : ℤ) (by rw [abs_of_nonneg (by omega)]; exact_mod_cast le_trans hn2 (by norm_num))
    simpa using this
  have hk' : Rel (2 / 2 ^ 53) (fl (k : K)) (k : K) := by
    have := rel_int hf (k : ℤ) (by rw [abs_of_nonneg (by omega)]; exact_mod_cast le_trans hk.le (le_trans hn2 (by norm_num)))
    simpa using this
  have hn1 : (1 : K) ≤ n := by exact_mod_cast hn
  have hn2' : (n : K) ≤ 2 ^ 40 := by exact_mod_cast hn2
  have hn0 : (n : K) ≠ 0 := by positivity
  rcases hd with rfl | ⟨hd1, hd2⟩
  · refine ⟨0, ?_, fun a b e => ?_⟩
    · unfold Rel; simp
    · unfold linVal
      rw [e, hf.zero, zero_div, hf.zero, if_pos rfl, mul_zero, hf.zero]
  · have h1 := Rel.of_fl hf d (normal_of (le_trans (by norm_num) hd1) (le_trans hd2 (by norm_num)))
    have hdn1 : (1 : K) / 2 ^ 50 ≤ |d / n| := by
      rw [abs_div, abs_of_pos (a := (n : K)) (by positivity), le_div_iff₀ (by positivity)]
      refine le_trans (b := (1 : K) / 2 ^ 50 * 2 ^ 40) (by gcongr) ?_
      exact le_trans (b := (1 : K) / 2 ^ 10) (by norm_num) hd1
    have hdn2 : |d / n| ≤ 2 := by
      rw [abs_div, abs_of_pos (a := (n : K)) (by positivity), div_le_iff₀ (by positivity)]
      linarith
    have h2 := (h1.div hN (by positivity) (by norm_num) hn0).mono (t := 7 / 2 ^ 53) (by norm_num)
    have h3 := (h2.fl hf (by norm_num) (normal_of (le_trans (by norm_num) hdn1) (le_trans hdn2 (by norm_num)))).mono
      (t := 9 / 2 ^ 53) (by norm_num)
    have hs0 : fl (fl d / fl n) ≠ 0 := h3.ne_zero (by norm_num) (by
      intro c; rw [c] at hdn1; norm_num at hdn1)
    have h4 := (hk'.mul h3 (by positivity)).mono (t := 23 / 2 / 2 ^ 53) (by norm_num)
    refine ⟨fl (fl k * fl (fl d / fl n)), (h4.fl hf (by norm_num) ?_).mono (t := 27 / 2 / 2 ^ 53) (by norm_num), fun a b e => ?_⟩
    · by_cases c : k = 0
      · left; rw [c]; simp
      · have hk1 : (1 : K) ≤ k := by exact_mod_cast Nat.one_le_iff_ne_zero.2 c
        have hk2 : (k : K) ≤ 2 ^ 40 := le_trans (by exact_mod_cast hk.le) hn2'
        refine normal_of ?_ ?_ <;> rw [abs_mul, abs_of_pos (a := (k : K)) (by positivity)]
        · refine le_trans (b := (1 : K) * (1 / 2 ^ 50)) (by norm_num) (by gcongr)
        · refine le_trans (b := (2 : K) ^ 40 * 2) (by gcongr) (by norm_num)
    · unfold linVal
      rw [e, if_neg hs0]

/-- a mixture lies between the mixed numbers -/
theorem mix_bounds {a b l lo hi : K} (h0 : 0 ≤ l) (h1 : l ≤ 1) (ha : lo ≤ a) (ha' : a ≤ hi) (hb : lo ≤ b) (hb' : b ≤ hi) :
    lo ≤ a + (b - a) * l ∧ a + (b - a) * l ≤ hi := by
  have e : a + (b - a) * l = (1 - l) * a + l * b := by ring
  rw [e]
  constructor
  · nlinarith
  · nlinarith

theorem lin_close (A B : ℤ) (n k : ℕ) (hA : 1 ≤ A ∧ A ≤ 255) (hB : 1 ≤ B ∧ B ≤ 255) (hn2 : n ≤ 2 ^ 40) (hk : k < n) :
    |linVal fl (comp fl A) (comp fl B) n k - Spec.blend A B n k| ≤ 1 / 2 ^ 48 := by
  have ha := rel_comp hf A hA.1 hA.2
  have hb := rel_comp hf B hB.1 hB.2
  have hA1 : (1 : K) ≤ A := by exact_mod_cast hA.1
  have hA2 : (A : K) ≤ 255 := by exact_mod_cast hA.2
  have hB1 : (1 : K) ≤ B := by exact_mod_cast hB.1
  have hB2 : (B : K) ≤ 255 := by exact_mod_cast hB.2
  have ha' : |comp fl A - (A : K) / 256| ≤ 9 / 2 ^ 53 := by
    unfold Rel at ha
    refine le_trans ha ?_
    rw [abs_of_nonneg (by positivity)]
    refine mul_le_of_le_one_right (by positivity) ?_
    rw [div_le_one (by norm_num)]; linarith
  have hb' : |comp fl B - (B : K) / 256| ≤ 9 / 2 ^ 53 := by
    unfold Rel at hb
    refine le_trans hb ?_
    rw [abs_of_nonneg (by positivity)]
    refine mul_le_of_le_one_right (by positivity) ?_
    rw [div_le_one (by norm_num)]; linarith
  have hl0 : (0 : K) ≤ (k : K) / n := by positivity
  have hn0 : (0 : K) < n := by exact_mod_cast (by omega : 0 < n)
  have hl1 : (k : K) / n ≤ 1 := by
    rw [div_le_one hn0]
    exact_mod_cast hk.le
  rw [abs_le] at ha' hb'
  have hd : comp fl B - comp fl A = 0 ∨ ((1 : K) / 2 ^ 10 ≤ |comp fl B - comp fl A| ∧ |comp fl B - comp fl A| ≤ 2) := by
    by_cases c : A = B
    · left; rw [c, sub_self]
    · right
      constructor
      · rcases lt_or_gt_of_ne c with h | h
        · have : (1 : K) ≤ B - A := by exact_mod_cast (by omega : (1 : ℤ) ≤ B - A)
          refine le_trans ?_ (le_abs_self _)
          norm_num at *; linarith
        · have : (1 : K) ≤ A - B := by exact_mod_cast (by omega : (1 : ℤ) ≤ A - B)
          refine le_trans ?_ (neg_le_abs _)
          norm_num at *; linarith
      · rw [abs_le]
        norm_num at *
        constructor <;> linarith
  obtain ⟨m, hm, hv⟩ := lin_offset hf (comp fl B - comp fl A) n k (by omega) hn2 hk hd
  rw [hv _ _ rfl]
  have hd2 : |comp fl B - comp fl A| ≤ 1 := by
    rw [abs_le]
    norm_num at *
    constructor <;> linarith
  have hm' : |m - (comp fl B - comp fl A) * (k / n)| ≤ 27 / 2 / 2 ^ 53 := by
    have e : (k : K) * ((comp fl B - comp fl A) / n) = (comp fl B - comp fl A) * (k / n) := by ring
    rw [e] at hm
    unfold Rel at hm
    refine le_trans hm (mul_le_of_le_one_right (by positivity) ?_)
    rw [abs_mul, abs_of_nonneg hl0]
    exact mul_le_one₀ hd2 hl0 hl1
  have hmix := mix_bounds hf (a := comp fl A - (A : K) / 256) (b := comp fl B - (B : K) / 256) hl0 hl1 ha'.1 ha'.2 hb'.1 hb'.2
  have hbl := mix_bounds hf (a := (A : K) / 256) (b := (B : K) / 256) (lo := 1 / 256) (hi := 255 / 256) hl0 hl1
    (by gcongr) (by gcongr) (by gcongr) (by gcongr)
  have eb : (Spec.blend A B n k : K) = (A : K) / 256 + ((B : K) / 256 - (A : K) / 256) * (k / n) := by
    unfold Spec.blend; ring
  rw [abs_le] at hm'
  have h1 : |m + comp fl A - Spec.blend A B n k| ≤ 45 / 2 / 2 ^ 53 := by
    rw [eb, abs_le]
    have e : m + comp fl A - ((A : K) / 256 + ((B : K) / 256 - (A : K) / 256) * (k / n))
      = (m - (comp fl B - comp fl A) * (k / n)) + (comp fl A - (A : K) / 256
        + (comp fl B - (B : K) / 256 - (comp fl A - (A : K) / 256)) * (k / n)) := by ring
    rw [e]
    have e22 : (45 : K) / 2 / 2 ^ 53 = 27 / 2 / 2 ^ 53 + 9 / 2 ^ 53 := by ring
    constructor <;> linarith [hmix.1, hmix.2]
  rw [← eb] at hbl
  rw [abs_le] at h1
  have hp : (1 : K) / 2 ^ 10 ≤ m + comp fl A := by norm_num at *; linarith
  have hq : m + comp fl A ≤ 2 := by norm_num at *; linarith
  have hp0 : (0 : K) ≤ m + comp fl A := le_trans (by norm_num) hp
  have h2 := hf.rel (m + comp fl A) (by
    rw [abs_of_nonneg hp0]
    exact le_trans (one_div_pow_le_one_div_pow_of_le (by norm_num) (by norm_num)) hp) (by
    rw [abs_of_nonneg hp0]
    refine le_trans hq ?_
    calc (2 : K) = 2 ^ 1 := by norm_num
      _ ≤ _ := pow_le_pow_right₀ (by norm_num) (by norm_num))
  rw [abs_of_nonneg hp0, abs_le] at h2
  rw [abs_le]
  norm_num at *
  constructor <;> linarith

end

/-- exact arithmetic -/
theorem lin_exact (A B : ℤ) (n k : ℕ) : linVal id (comp id A) (comp id B) n k = (Spec.blend A B n k : K) := by
  unfold linVal comp Spec.blend
  simp only [id_eq]
  split_ifs <;> ring

theorem linspace_eq {fl : K → K} (a b : K) (n : ℕ) (hn : n ≠ 0 → fl (n : K) ≠ 0) (h0 : fl 0 = 0) :
    @linspace K (roundedOps fl) a b n = .ok ((List.range n).map (linVal fl a b n)) := by
  unfold linspace
  by_cases c : n = 0
  · subst c; rfl
  · rw [if_neg (by omega), if_neg (by omega)]
    simp only [rd_sub, rd_ofInt, rd_div, Int.cast_natCast, if_neg (hn c), Int.toNat_natCast]
    refine Helpers.mapM_ok _ _ _ fun k _ => ?_
    unfold linspaceAt linVal
    simp only [rd_ofInt, rd_div, rd_mul, rd_add, if_neg (hn c), Int.cast_natCast, Int.cast_zero, h0]
    have he : @FloatOps.eq K (roundedOps fl) (fl (fl (b - a) / fl n)) 0 = decide (fl (fl (b - a) / fl n) = 0) := rfl
    rw [he]
    by_cases h : fl (fl (b - a) / fl n) = 0
    · rw [if_pos h, if_pos (decide_eq_true h)]; rfl
    · rw [if_neg h, if_neg fun c => h (of_decide_eq_true c)]; rfl

/-- a computed row of `VE` -/
def entryOf (fl : K → K) (e : ℤ × ℤ × ℤ × ℤ) : Entry K :=
  ⟨fl ((e.1 : K) / 100), comp fl e.2.1, comp fl e.2.2.1, comp fl e.2.2.2⟩

/-- a row of numbers between 1 and 255, at a position between 0 and 1 -/
def Row (e : ℤ × ℤ × ℤ × ℤ) : Prop :=
  (0 ≤ e.1 ∧ e.1 ≤ 100) ∧ (1 ≤ e.2.1 ∧ e.2.1 ≤ 255) ∧ (1 ≤ e.2.2.1 ∧ e.2.2.1 ≤ 255) ∧ (1 ≤ e.2.2.2 ∧ e.2.2.2 ≤ 255)

instance (e : ℤ × ℤ × ℤ × ℤ) : Decidable (Row e) := by unfold Row; infer_instance

theorem entry_eq {fl : K → K} (h : fl 256 ≠ 0) (e : ℤ × ℤ × ℤ × ℤ) :
    @entry K (roundedOps fl) (fun z => fl ((z : K) / 100)) e = .ok (entryOf fl e) := by
  unfold entry
  simp only [rd_div, rd_ofInt, Int.cast_ofNat, if_neg h]
  rfl

theorem segments_blends {fl : K → K} (h0 : fl 0 = 0) (ε δ : K) (hδ : δ ≤ 1) (vals : ℤ) (hv : vals ≤ 10 ^ 9) (hv0 : 0 ≤ vals)
    (H1 : ∀ a b : ℤ, 0 ≤ a → a < b → b ≤ 100 → 0 ≤ truncZ (points fl a b vals)
      ∧ ((b : K) - a) / 100 * vals - 1 - δ < truncZ (points fl a b vals)
      ∧ (truncZ (points fl a b vals) : K) ≤ ((b : K) - a) / 100 * vals + δ)
    (H2 : ∀ (A B : ℤ) (n k : ℕ), (1 ≤ A ∧ A ≤ 255) → (1 ≤ B ∧ B ≤ 255) → n ≤ 2 ^ 40 → k < n →
      |linVal fl (comp fl A) (comp fl B) n k - Spec.blend A B n k| ≤ ε)
    (H3 : ∀ n : ℕ, n ≠ 0 → n ≤ 2 ^ 40 → fl (n : K) ≠ 0)
    (L : List (ℤ × ℤ × ℤ × ℤ)) (hL : L ≠ []) (hc : L.IsChain (fun p q => p.1 < q.1)) (hr : ∀ e ∈ L, Row e) :
    ∃ cs, @segments K (roundedOps fl) vals (L.map (entryOf fl)) = .ok cs ∧ Spec.Blends ε δ vals L cs := by
  induction L with
  | nil => exact absurd rfl hL
  | cons p L ih =>
    cases L with
    | nil => exact ⟨[], rfl, .last p⟩
    | cons q rest =>
      obtain ⟨cs, hcs, hb⟩ := ih (by simp) (List.IsChain.tail hc) (fun e he => hr e (List.mem_cons_of_mem _ he))
      have hp := hr p (by simp)
      have hq := hr q (by simp)
      have hpq : p.1 < q.1 := (List.isChain_cons_cons.1 hc).1
      obtain ⟨hn0, hlo, hup⟩ := H1 p.1 q.1 hp.1.1 hpq hq.1.2
      obtain ⟨n, hn⟩ := Int.eq_ofNat_of_zero_le hn0
      rw [hn, Int.cast_natCast] at hlo hup
      have hn2 : n ≤ 2 ^ 40 := by
        have h1 : ((q.1 : K) - p.1) / 100 * vals ≤ 1 * 10 ^ 9 := by
          have h2 : (vals : K) ≤ 10 ^ 9 := by exact_mod_cast hv
          have h2' : (0 : K) ≤ vals := by exact_mod_cast hv0
          have h3 : ((q.1 : K) - p.1) / 100 ≤ 1 := by
            rw [div_le_one (by norm_num)]
            have := hp.1.1
            have := hq.1.2
            exact_mod_cast (by omega : q.1 - p.1 ≤ 100)
          gcongr
        have h2 : (n : K) ≤ 2 ^ 40 := le_trans (b := (1 : K) * 10 ^ 9 + 1) (by linarith) (by norm_num)
        exact_mod_cast h2
      have hfn : n ≠ 0 → fl (n : K) ≠ 0 := fun c => H3 n c hn2
      have hseg : @segment K (roundedOps fl) vals (entryOf fl p) (entryOf fl q)
          = .ok (((List.range n).map (linVal fl (comp fl p.2.1) (comp fl q.2.1) n)).zip
            (((List.range n).map (linVal fl (comp fl p.2.2.1) (comp fl q.2.2.1) n)).zip
              ((List.range n).map (linVal fl (comp fl p.2.2.2) (comp fl q.2.2.2) n)))) := by
        unfold segment
        simp only [rd_sub, rd_ofInt, rd_mul, rd_toInt]
        have : truncZ (fl (fl ((entryOf fl q).pos - (entryOf fl p).pos) * fl (vals : K))) = n := hn
        rw [this]
        change (do
          let rs ← @linspace K (roundedOps fl) (comp fl p.2.1) (comp fl q.2.1) n
          let gs ← @linspace K (roundedOps fl) (comp fl p.2.2.1) (comp fl q.2.2.1) n
          let bs ← @linspace K (roundedOps fl) (comp fl p.2.2.2) (comp fl q.2.2.2) n
          return rs.zip (gs.zip bs) : Py _) = _
        rw [linspace_eq _ _ n hfn h0, linspace_eq _ _ n hfn h0, linspace_eq _ _ n hfn h0]
        rfl
      refine ⟨((List.range n).map (linVal fl (comp fl p.2.1) (comp fl q.2.1) n)).zip
            (((List.range n).map (linVal fl (comp fl p.2.2.1) (comp fl q.2.2.1) n)).zip
              ((List.range n).map (linVal fl (comp fl p.2.2.2) (comp fl q.2.2.2) n))) ++ cs, ?_, .step p q rest _ cs ?_ ?_ ?_ hb⟩
      · simp only [List.map_cons] at hcs ⊢
        unfold segments
        rw [hseg, hcs]
        rfl
      · simpa using hlo
      · simpa using hup
      · intro k hk
        have hk' : k < n := by simpa using hk
        simp only [List.getElem_zip, List.getElem_map, List.getElem_range, List.length_zip, List.length_map, List.length_range,
          min_self]
        exact ⟨H2 _ _ n k hp.2.1 hq.2.1 hn2 hk', H2 _ _ n k hp.2.2.1 hq.2.2.1 hn2 hk', H2 _ _ n k hp.2.2.2 hq.2.2.2 hn2 hk'⟩

end Verif.Colormap
