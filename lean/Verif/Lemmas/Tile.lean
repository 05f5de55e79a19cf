import Verif.Lemmas.HWField
import Verif.Lemmas.Spectral

/-!
# Fields on a box that is tiled with copies of a smaller box
-/

set_option linter.unusedSectionVars false

namespace Verif

open Spec Complex

variable {a b h w : ℕ} [NeZero a] [NeZero b] [NeZero h] [NeZero w]

instance mulNeZero : NeZero (a * h) := ⟨Nat.mul_ne_zero (NeZero.ne a) (NeZero.ne h)⟩

/-- position inside the copy -/
def down (a : ℕ) {h : ℕ} (i : ZMod (a * h)) : ZMod h := ZMod.castHom (Dvd.intro_left a rfl) (ZMod h) i

theorem down_add (i j : ZMod (a * h)) : down a (i + j) = down a i + down a j := map_add _ _ _
theorem down_sub (i j : ZMod (a * h)) : down a (i - j) = down a i - down a j := map_sub _ _ _
theorem down_one : down a (1 : ZMod (a * h)) = 1 := map_one _
theorem down_natCast (i : ℕ) : down a (i : ZMod (a * h)) = (i : ZMod h) := map_natCast _ _

/-- `a × b` copies of a field -/
def tileF (a b : ℕ) {K : Type} {h w : ℕ} (f : ZMod h → ZMod w → K) : ZMod (a * h) → ZMod (b * w) → K :=
  fun i j => f (down a i) (down b j)

/-- mode of the large box that equals mode `k` of the small one -/
def up (a : ℕ) {h : ℕ} (k : ZMod h) : ZMod (a * h) := ((a * k.val : ℕ) : ZMod (a * h))

theorem up_val (k : ZMod h) : (up a k).val = a * k.val := by
  unfold up
  rw [ZMod.val_natCast, Nat.mod_eq_of_lt]
  exact Nat.mul_lt_mul_of_pos_left (ZMod.val_lt k) (NeZero.pos a)

theorem up_inj {k l : ZMod h} (e : up a k = up a l) : k = l := by
  have := congrArg ZMod.val e
  rw [up_val, up_val] at this
  exact ZMod.val_injective h (Nat.eq_of_mul_eq_mul_left (NeZero.pos a) this)

theorem up_zero : up a (0 : ZMod h) = 0 := by simp [up]

theorem up_eq_zero (k : ZMod h) : up a k = 0 ↔ k = 0 :=
  ⟨fun e => up_inj (e.trans up_zero.symm), fun e => by rw [e, up_zero]⟩

theorem ec_up (i : ZMod (a * h)) (k : ZMod h) : ec (i * up a k) = ec (down a i * k) := by
  obtain ⟨m, rfl⟩ : ∃ m : ℕ, i = m := ⟨i.val, by simp⟩
  obtain ⟨n, rfl⟩ : ∃ n : ℕ, k = n := ⟨k.val, by simp⟩
  rw [down_natCast, ec_exp]
  unfold up
  rw [ec_exp]
  have ha : (a : ℂ) ≠ 0 := Nat.cast_ne_zero.mpr (NeZero.ne a)
  have hh : (h : ℂ) ≠ 0 := Nat.cast_ne_zero.mpr (NeZero.ne h)
  have := ec_exp (n := h) m (n : ZMod h).val
  rw [ZMod.natCast_val, ZMod.cast_id', id, ec_exp] at this
  rw [this]
  congr 2
  push_cast
  field_simp

theorem kap_up (k : ZMod h) : kap (up a k) = kap k := by
  unfold kap Arr.fftfreq
  rw [up_val]
  have hk := ZMod.val_lt k
  have ha := NeZero.pos a
  have ha' : (a : ℝ) ≠ 0 := Nat.cast_ne_zero.mpr (NeZero.ne a)
  have hh : (h : ℝ) ≠ 0 := Nat.cast_ne_zero.mpr (NeZero.ne h)
  have e : 2 * (a * k.val) < a * h ↔ 2 * k.val < h := by
    rw [show 2 * (a * k.val) = a * (2 * k.val) by ring]
    exact Nat.mul_lt_mul_left ha
  rw [fftfreqInt_eq hk, fftfreqInt_eq (Nat.mul_lt_mul_of_pos_left hk ha)]
  simp only [e]
  split
  · push_cast; field_simp
  · push_cast; field_simp

theorem lamb_up (k : ZMod h) (l : ZMod w) : lamb (up a k) (up b l) = lamb k l := by
  unfold lamb; rw [kap_up, kap_up]

theorem sig_up (m : ℕ) (k : ZMod h) (l : ZMod w) : sig m (up a k) (up b l) = sig m k l := by
  unfold sig; simp only [lamb_up, up_eq_zero]

/-- spectrum of the tiled field -/
noncomputable def upF (a b : ℕ) (g : ZMod h → ZMod w → ℂ) : ZMod (a * h) → ZMod (b * w) → ℂ := fun k l =>
  ((a : ℂ) * b) * S fun k' l' => if k = up a k' ∧ l = up b l' then g k' l' else 0

theorem ID_upF (g : ZMod h → ZMod w → ℂ) : ID (upF a b g) = tileF a b (ID g) := by
  funext i j
  have ha : (a : ℂ) ≠ 0 := Nat.cast_ne_zero.mpr (NeZero.ne a)
  have hb : (b : ℂ) ≠ 0 := Nat.cast_ne_zero.mpr (NeZero.ne b)
  have hh : (h : ℂ) ≠ 0 := Nat.cast_ne_zero.mpr (NeZero.ne h)
  have hw : (w : ℂ) ≠ 0 := Nat.cast_ne_zero.mpr (NeZero.ne w)
  have key : (S fun k l => upF a b g k l * (ec (i * k) * ec (j * l)))
      = ((a : ℂ) * b) * S fun k l => g k l * (ec (down a i * k) * ec (down b j * l)) := by
    have e1 : ∀ k l, upF a b g k l * (ec (i * k) * ec (j * l)) = ((a : ℂ) * b) * ∑ p : ZMod h × ZMod w,
        if (k, l) = (up a p.1, up b p.2) then g p.1 p.2 * (ec (i * k) * ec (j * l)) else 0 := by
      intro k l
      unfold upF S
      rw [← Fintype.sum_prod_type', mul_assoc, Finset.sum_mul]
      congr 1
      refine Finset.sum_congr rfl fun p _ => ?_
      simp only [Prod.mk.injEq, ite_mul, zero_mul]
    unfold S
    simp only [e1]
    rw [← Fintype.sum_prod_type', ← Fintype.sum_prod_type', ← Finset.mul_sum, Finset.sum_comm]
    congr 1
    refine Finset.sum_congr rfl fun p _ => ?_
    rw [Finset.sum_eq_single (up a p.1, up b p.2)]
    · rw [if_pos rfl, ec_up, ec_up]
    · intro q _ hq
      rw [if_neg (by simpa using hq)]
    · simp
  unfold tileF ID
  rw [key]
  push_cast
  field_simp

theorem D_tileF (f : ZMod h → ZMod w → ℂ) : D (tileF a b f) = upF a b (D f) := by
  conv_lhs => rw [← ID_D f, ← ID_upF, D_ID]

theorem mult_tile (s : ZMod h → ZMod w → ℝ) (s' : ZMod (a * h) → ZMod (b * w) → ℝ)
    (hs : ∀ k l, s' (up a k) (up b l) = s k l) (f : Fld h w) : mult s' (tileF a b f) = tileF a b (mult s f) := by
  have e : (fun k l => (s' k l : ℂ) * D (cx (tileF a b f)) k l) = upF a b fun k l => (s k l : ℂ) * D (cx f) k l := by
    funext k l
    rw [show cx (tileF a b f) = tileF a b (cx f) from rfl, D_tileF]
    unfold upF S
    rw [mul_left_comm]
    congr 1
    simp only [Finset.mul_sum]
    refine Finset.sum_congr rfl fun k' _ => Finset.sum_congr rfl fun l' _ => ?_
    split
    · next e => rw [e.1, e.2, hs]
    · rw [mul_zero]
  unfold mult
  rw [e, ID_upF]
  rfl

theorem sum_down (a : ℕ) [NeZero a] (g : ZMod h → ℝ) : ∑ i : ZMod (a * h), g (down a i) = a * ∑ i, g i := by
  rw [← sum_range_zmod fun i => g (down a i), ← sum_range_zmod g]
  simp only [down_natCast]
  have : ∀ n : ℕ, ∑ i ∈ Finset.range (n * h), g (i : ZMod h) = n * ∑ i ∈ Finset.range h, g (i : ZMod h) := by
    intro n
    induction n with
    | zero => simp
    | succ n ih =>
      rw [Nat.succ_mul, Finset.sum_range_add, ih]
      push_cast
      simp only [ZMod.natCast_self, mul_zero, zero_add]
      ring
  exact this a

theorem S_tile (f : Fld h w) : S (tileF a b f) = a * b * S f := by
  unfold S tileF
  simp only [sum_down b]
  rw [sum_down a fun i => (b : ℝ) * ∑ j, f i j, ← Finset.mul_sum, mul_assoc]

theorem avg_tile (f : Fld h w) : avg (tileF a b f) = avg f := by
  have ha : (a : ℝ) ≠ 0 := Nat.cast_ne_zero.mpr (NeZero.ne a)
  have hb : (b : ℝ) ≠ 0 := Nat.cast_ne_zero.mpr (NeZero.ne b)
  have hh : (h : ℝ) ≠ 0 := Nat.cast_ne_zero.mpr (NeZero.ne h)
  have hw : (w : ℝ) ≠ 0 := Nat.cast_ne_zero.mpr (NeZero.ne w)
  unfold avg
  rw [S_tile]
  push_cast
  field_simp

theorem phiF_tile (dx : ℝ) (f : Fld h w) : phiF dx (tileF a b f) = tileF a b (phiF dx f) := by
  unfold phiF
  rw [avg_tile]
  funext i j
  have := congrFun (congrFun (mult_tile (a := a) (b := b) (sig 1) (sig 1) (sig_up 1) fun i j => f i j - avg f) i) j
  change mult (sig 1) (tileF a b fun i j => f i j - avg f) i j * dx ^ 2 = _
  rw [this]
  rfl

theorem symm_tile : Symm (tileF a b : Fld h w → Fld (a * h) (b * w)) where
  add _ _ := rfl
  smul _ _ := rfl
  lap dx f := by
    funext i j
    simp only [lap, tileF, down_add, down_sub, down_one]
  gradY dx f := by
    funext i j
    simp only [gradY, tileF, down_add, down_sub, down_one]
  jac dx f g := by
    funext i j
    simp only [jac, tileF, down_add, down_sub, down_one]
  nonZonal f := by
    funext i j
    simp only [nonZonal, tileF]
    rw [sum_down a fun i => f i (down b j)]
    have ha : (a : ℝ) ≠ 0 := Nat.cast_ne_zero.mpr (NeZero.ne a)
    push_cast
    rw [mul_div_mul_left _ _ ha]
  phiF dx f := phiF_tile dx f
  avg f g := avg_tile fun i j => f i j * g i j

end Verif
