import Mathlib.Data.ZMod.Basic
import Mathlib.Tactic.Ring

/-!
# NumPy layer: two-dimensional arrays with run-time shapes

`Arr α` is a `numpy.ndarray` with `ndim = 2`.  The scalar type `α` carries
*no laws*: the operations of `α` are parameters, so whatever is proved here
holds for IEEE floats as well as for real numbers.

Arrays with leading batch axes (`[..., y, x]` indexing) are in `NumPy/Stack`;
C95 relates the functions on them to the functions on frames.
-/

namespace Verif

/-- Python exceptions (and the value `None`, see `noneResult`) as values. -/
inductive PyErr where
  | valueError
  | indexError
  | keyError (key : String)
  | typeError
  | nameError (name : String)
  | unboundLocalError (name : String)
  | zeroDivisionError
  | assertionError
  | baseException (msg : String)
  | fileError
  /-- the function fell off its end and returned `None` -/
  | noneResult
  deriving DecidableEq, Repr

/-- A computation that may raise. -/
abbrev Py (α : Type) := Except PyErr α

@[simp] theorem Py.ok_bind {α β : Type} (a : α) (f : α → Py β) :
    (Bind.bind (Except.ok a : Except PyErr α) f : Py β) = f a := rfl
@[simp] theorem Py.error_bind {α β : Type} (e : PyErr) (f : α → Py β) :
    (Bind.bind (Except.error e : Except PyErr α) f : Py β) = .error e := rfl
@[simp] theorem Py.pure_eq {α : Type} (a : α) : (Pure.pure a : Py α) = .ok a := rfl

/-- A two-dimensional `numpy` array: shape `(h, w)` and its entries. -/
@[ext]
structure Arr (α : Type) where
  h : Nat
  w : Nat
  get : Fin h → Fin w → α

namespace Arr

variable {α β γ : Type}

/-- Array of shape `(h, w)` with entry `f i j` at `[i, j]`. -/
def tab (h w : Nat) (f : Nat → Nat → α) : Arr α := ⟨h, w, fun i j => f i j⟩

/-- `a[i, j]` for `0 ≤ i < h`, `0 ≤ j < w`.  The default is only there to make
the function total; the array operations below never read out of range. -/
def at' [Inhabited α] (a : Arr α) (i j : Nat) : α :=
  if hi : i < a.h then if hj : j < a.w then a.get ⟨i, hi⟩ ⟨j, hj⟩ else default else default

@[simp] theorem tab_h (h w : Nat) (f : Nat → Nat → α) : (tab h w f).h = h := rfl
@[simp] theorem tab_w (h w : Nat) (f : Nat → Nat → α) : (tab h w f).w = w := rfl

theorem tab_at' [Inhabited α] (h w : Nat) (f : Nat → Nat → α) {i j : Nat}
    (hi : i < h) (hj : j < w) : (tab h w f).at' i j = f i j := by
  simp [at', tab, hi, hj]

/-- Two tabulated arrays agree if shapes and in-range entries agree. -/
theorem tab_congr {h w h' w' : Nat} {f g : Nat → Nat → α} (hh : h = h') (hw : w = w')
    (hfg : ∀ i j, i < h → j < w → f i j = g i j) : tab h w f = tab h' w' g := by
  subst hh; subst hw
  unfold tab
  congr 1
  funext i j
  exact hfg i j i.2 j.2

theorem eq_tab [Inhabited α] (a : Arr α) : a = tab a.h a.w a.at' := by
  cases a with
  | mk h w get =>
    unfold tab
    congr 1
    funext i j
    simp [at']

theorem ext_at' [Inhabited α] {a b : Arr α} (hh : a.h = b.h) (hw : a.w = b.w)
    (hab : ∀ i j, i < a.h → j < a.w → a.at' i j = b.at' i j) : a = b := by
  rw [eq_tab a, eq_tab b]
  exact tab_congr hh hw hab

/-! ### Python slices -/

/-- A Python slice `lo:hi` with step 1; `none` is an omitted bound. -/
structure Sl where
  lo : Option Int
  hi : Option Int

/-- CPython `PySlice_AdjustIndices` for one bound: negative indices count from
the end, then clamp to `[0, n]`. -/
def adjust (n : Nat) (i : Int) : Nat :=
  (min (max (if i < 0 then i + n else i) 0) n).toNat

/-- first index of the slice -/
def Sl.start (s : Sl) (n : Nat) : Nat := match s.lo with
  | none => 0
  | some i => adjust n i

/-- one past the last index of the slice -/
def Sl.stop (s : Sl) (n : Nat) : Nat := match s.hi with
  | none => n
  | some i => adjust n i

/-- number of selected elements -/
def Sl.len (s : Sl) (n : Nat) : Nat := s.stop n - s.start n

/-- `0:-2` -/
def s0m2 : Sl := ⟨some 0, some (-2)⟩
/-- `1:-1` -/
def s1m1 : Sl := ⟨some 1, some (-1)⟩
/-- `2:` -/
def s2 : Sl := ⟨some 2, none⟩
/-- `:-2` -/
def sm2 : Sl := ⟨none, some (-2)⟩

/-- `a[r, c]` with slices `r`, `c`. -/
def sl [Inhabited α] (a : Arr α) (r c : Sl) : Arr α :=
  tab (r.len a.h) (c.len a.w) fun i j => a.at' (r.start a.h + i) (c.start a.w + j)

theorem len_s0m2 (n : Nat) : s0m2.len n = n - 2 := by
  simp only [s0m2, Sl.len, Sl.stop, Sl.start, adjust]; simp; omega
theorem len_s1m1 (n : Nat) : s1m1.len n = n - 2 := by
  simp only [s1m1, Sl.len, Sl.stop, Sl.start, adjust]; simp; omega
theorem len_s2 (n : Nat) : s2.len n = n - 2 := by
  simp only [s2, Sl.len, Sl.stop, Sl.start, adjust]; simp; omega
theorem len_sm2 (n : Nat) : sm2.len n = n - 2 := by
  simp only [sm2, Sl.len, Sl.stop, Sl.start, adjust]; simp; omega
theorem start_s0m2 (n : Nat) : s0m2.start n = 0 := by
  simp [s0m2, Sl.start, adjust]
theorem start_s1m1 (n : Nat) (h : 1 ≤ n) : s1m1.start n = 1 := by
  simp only [s1m1, Sl.start, adjust]; simp; omega
theorem start_s2 (n : Nat) (h : 2 ≤ n) : s2.start n = 2 := by
  simp only [s2, Sl.start, adjust]; simp; omega
theorem start_sm2 (n : Nat) : sm2.start n = 0 := rfl

/-! ### Element-wise operators with broadcasting -/

/-- NumPy broadcasting of one dimension. -/
def bdim (a b : Nat) : Option Nat :=
  if a = b then some a else if a = 1 then some b else if b = 1 then some a else none

theorem bdim_self (a : Nat) : bdim a a = some a := by simp [bdim]

/-- index into a dimension of size `n` after broadcasting -/
def bidx (n i : Nat) : Nat := if n = 1 then 0 else i

theorem bidx_lt {n i : Nat} (h : i < n) : bidx n i = i := by
  unfold bidx; split <;> omega

/-- Element-wise binary operation with broadcasting; incompatible shapes raise
`ValueError`. -/
def zip [Inhabited α] [Inhabited β] (f : α → β → γ) (a : Arr α) (b : Arr β) : Py (Arr γ) :=
  match bdim a.h b.h, bdim a.w b.w with
  | some h, some w => .ok (tab h w fun i j =>
      f (a.at' (bidx a.h i) (bidx a.w j)) (b.at' (bidx b.h i) (bidx b.w j)))
  | _, _ => .error .valueError

theorem zip_tab [Inhabited α] [Inhabited β] (f : α → β → γ) (h w : Nat)
    (u : Nat → Nat → α) (v : Nat → Nat → β) :
    zip f (tab h w u) (tab h w v) = .ok (tab h w fun i j => f (u i j) (v i j)) := by
  simp only [zip, tab_h, tab_w, bdim_self]
  congr 1
  refine tab_congr rfl rfl fun i j hi hj => ?_
  rw [bidx_lt hi, bidx_lt hj, tab_at' _ _ _ hi hj, tab_at' _ _ _ hi hj]

/-- Element-wise unary operation (also: operation with a Python scalar). -/
def map (f : α → β) (a : Arr α) : Arr β := ⟨a.h, a.w, fun i j => f (a.get i j)⟩

@[simp] theorem map_tab (f : α → β) (h w : Nat) (u : Nat → Nat → α) :
    map f (tab h w u) = tab h w fun i j => f (u i j) := rfl

@[simp] theorem map_h (f : α → β) (a : Arr α) : (map f a).h = a.h := rfl
@[simp] theorem map_w (f : α → β) (a : Arr α) : (map f a).w = a.w := rfl

/-! ### `np.pad(a, p, "wrap")` and `np.roll` -/

/-- index read by the wrapped padding: `(i - p) mod n` -/
def wrapIdx (n p i : Nat) : Nat := (((i : Int) - p) % n).toNat

theorem wrapIdx_lt {n p i : Nat} (hn : 0 < n) : wrapIdx n p i < n := by
  unfold wrapIdx
  have h1 := Int.emod_nonneg ((i : Int) - p) (b := (n : Int)) (by omega)
  have h2 := Int.emod_lt_of_pos ((i : Int) - p) (b := (n : Int)) (by omega)
  omega

/-- `np.pad(a, p, mode="wrap")` with the same width `p` on all four sides.
NumPy raises `ValueError` if a non-zero pad meets an axis of length 0.  For
`p` larger than the axis the array is repeated periodically (NumPy ≥ 1.25). -/
def padWrap [Inhabited α] (a : Arr α) (p : Nat) : Py (Arr α) :=
  if 0 < p ∧ (a.h = 0 ∨ a.w = 0) then .error .valueError
  else .ok (tab (a.h + 2 * p) (a.w + 2 * p) fun i j =>
    a.at' (wrapIdx a.h p i) (wrapIdx a.w p j))

/-- `np.roll(a, (s, t), axis=(0, 1))` for any integers `s`, `t`. -/
def roll [Inhabited α] (a : Arr α) (s t : Int) : Arr α :=
  tab a.h a.w fun i j => a.at' (((i : Int) - s) % a.h).toNat (((j : Int) - t) % a.w).toNat

@[simp] theorem roll_h [Inhabited α] (a : Arr α) (s t : Int) : (roll a s t).h = a.h := rfl
@[simp] theorem roll_w [Inhabited α] (a : Arr α) (s t : Int) : (roll a s t).w = a.w := rfl

/-! ### Fields on the discrete torus -/

/-- The array holding a field on the torus `ZMod h × ZMod w`. -/
def ofField {h w : Nat} (f : ZMod h → ZMod w → α) : Arr α :=
  tab h w fun i j => f (i : ZMod h) (j : ZMod w)

@[simp] theorem ofField_h {h w : Nat} (f : ZMod h → ZMod w → α) : (ofField f).h = h := rfl
@[simp] theorem ofField_w {h w : Nat} (f : ZMod h → ZMod w → α) : (ofField f).w = w := rfl

theorem ofField_at' [Inhabited α] {h w : Nat} (f : ZMod h → ZMod w → α) {i j : Nat}
    (hi : i < h) (hj : j < w) : (ofField f).at' i j = f i j := tab_at' _ _ _ hi hj

/-- Entries of an array as a field on the torus. -/
def field [Inhabited α] (a : Arr α) : ZMod a.h → ZMod a.w → α := fun i j => a.at' i.val j.val

theorem ofField_field [Inhabited α] (a : Arr α) : ofField a.field = a := by
  conv_rhs => rw [eq_tab a]
  refine tab_congr rfl rfl fun i j hi hj => ?_
  simp [field, ZMod.val_natCast, Nat.mod_eq_of_lt hi, Nat.mod_eq_of_lt hj]

theorem ofField_inj {h w : Nat} [NeZero h] [NeZero w] {f g : ZMod h → ZMod w → α}
    (e : ofField f = ofField g) : f = g := by
  unfold ofField tab at e
  simp only [Arr.mk.injEq, heq_eq_eq, true_and] at e
  funext i j
  have := congrFun (congrFun e ⟨i.val, ZMod.val_lt i⟩) ⟨j.val, ZMod.val_lt j⟩
  simpa using this

/-- Every non-empty array is the array of some field on a torus. -/
theorem exists_ofField [Inhabited α] (a : Arr α) :
    ∃ f : ZMod a.h → ZMod a.w → α, a = ofField f := ⟨a.field, (ofField_field a).symm⟩

theorem cast_emod_toNat (n : Nat) [NeZero n] (x : Int) :
    (((x % n).toNat : Nat) : ZMod n) = (x : ZMod n) := by
  have h1 := Int.emod_nonneg x (b := (n : Int)) (by have := NeZero.pos n; omega)
  have : (((x % n).toNat : Nat) : Int) = x % n := Int.toNat_of_nonneg h1
  rw [← Int.cast_natCast, this]
  simp

theorem cast_wrapIdx (n p i : Nat) [NeZero n] :
    ((wrapIdx n p i : Nat) : ZMod n) = (i : ZMod n) - p := by
  unfold wrapIdx
  rw [cast_emod_toNat]
  push_cast; rfl

theorem padWrap_ofField [Inhabited α] {h w : Nat} [NeZero h] [NeZero w]
    (f : ZMod h → ZMod w → α) (p : Nat) :
    padWrap (ofField f) p =
      .ok (tab (h + 2 * p) (w + 2 * p) fun i j => f ((i : ZMod h) - p) ((j : ZMod w) - p)) := by
  unfold padWrap
  have hh := NeZero.pos h
  have hw := NeZero.pos w
  rw [if_neg (by simp only [ofField_h, ofField_w]; omega)]
  congr 1
  refine tab_congr rfl rfl fun i j _ _ => ?_
  simp only [ofField_h, ofField_w]
  rw [ofField_at' f (wrapIdx_lt hh) (wrapIdx_lt hw), cast_wrapIdx, cast_wrapIdx]

theorem roll_ofField [Inhabited α] {h w : Nat} [NeZero h] [NeZero w]
    (f : ZMod h → ZMod w → α) (s t : Int) :
    roll (ofField f) s t = ofField fun i j => f (i - (s : ZMod h)) (j - (t : ZMod w)) := by
  refine tab_congr rfl rfl fun i j hi hj => ?_
  have hh := NeZero.pos h
  have hw := NeZero.pos w
  have e1 : (((i : Int) - s) % (h : Int)).toNat < h := by
    have h1 := Int.emod_nonneg ((i : Int) - s) (b := (h : Int)) (by omega)
    have h2 := Int.emod_lt_of_pos ((i : Int) - s) (b := (h : Int)) (by omega)
    omega
  have e2 : (((j : Int) - t) % (w : Int)).toNat < w := by
    have h1 := Int.emod_nonneg ((j : Int) - t) (b := (w : Int)) (by omega)
    have h2 := Int.emod_lt_of_pos ((j : Int) - t) (b := (w : Int)) (by omega)
    omega
  simp only [ofField_h, ofField_w]
  rw [ofField_at' f e1 e2, cast_emod_toNat, cast_emod_toNat]
  push_cast; rfl

/-! ### Evaluating slices of tabulated arrays -/

section slices
variable [Inhabited α] (h w : Nat) (f : Nat → Nat → α)

/-- general slice evaluation -/
theorem sl_tab {r c : Sl} {h' w' a b h w : Nat} {f : Nat → Nat → α}
    (hr : r.len h = h') (hc : c.len w = w') (ha : 0 < h' → r.start h = a)
    (hb : 0 < w' → c.start w = b) (hah : a + h' ≤ h) (hbw : b + w' ≤ w) :
    sl (tab h w f) r c = tab h' w' fun i j => f (a + i) (b + j) := by
  refine tab_congr hr hc fun i j hi hj => ?_
  simp only [tab_h, tab_w] at hi hj ⊢
  rw [hr] at hi; rw [hc] at hj
  rw [ha (by omega), hb (by omega), tab_at' _ _ _ (by omega) (by omega)]

@[simp] theorem sl_11 : sl (tab (h + 2) (w + 2) f) s1m1 s1m1 = tab h w fun i j => f (1 + i) (1 + j) :=
  sl_tab (len_s1m1 _) (len_s1m1 _) (fun _ => start_s1m1 _ (by omega))
    (fun _ => start_s1m1 _ (by omega)) (by omega) (by omega)
@[simp] theorem sl_01 : sl (tab (h + 2) (w + 2) f) s0m2 s1m1 = tab h w fun i j => f (0 + i) (1 + j) :=
  sl_tab (len_s0m2 _) (len_s1m1 _) (fun _ => start_s0m2 _)
    (fun _ => start_s1m1 _ (by omega)) (by omega) (by omega)
@[simp] theorem sl_10 : sl (tab (h + 2) (w + 2) f) s1m1 s0m2 = tab h w fun i j => f (1 + i) (0 + j) :=
  sl_tab (len_s1m1 _) (len_s0m2 _) (fun _ => start_s1m1 _ (by omega))
    (fun _ => start_s0m2 _) (by omega) (by omega)
@[simp] theorem sl_12 : sl (tab (h + 2) (w + 2) f) s1m1 s2 = tab h w fun i j => f (1 + i) (2 + j) :=
  sl_tab (len_s1m1 _) (len_s2 _) (fun _ => start_s1m1 _ (by omega))
    (fun _ => start_s2 _ (by omega)) (by omega) (by omega)
@[simp] theorem sl_21 : sl (tab (h + 2) (w + 2) f) s2 s1m1 = tab h w fun i j => f (2 + i) (1 + j) :=
  sl_tab (len_s2 _) (len_s1m1 _) (fun _ => start_s2 _ (by omega))
    (fun _ => start_s1m1 _ (by omega)) (by omega) (by omega)
@[simp] theorem sl_22 : sl (tab (h + 2) (w + 2) f) s2 s2 = tab h w fun i j => f (2 + i) (2 + j) :=
  sl_tab (len_s2 _) (len_s2 _) (fun _ => start_s2 _ (by omega))
    (fun _ => start_s2 _ (by omega)) (by omega) (by omega)
@[simp] theorem sl_02 : sl (tab (h + 2) (w + 2) f) s0m2 s2 = tab h w fun i j => f (0 + i) (2 + j) :=
  sl_tab (len_s0m2 _) (len_s2 _) (fun _ => start_s0m2 _)
    (fun _ => start_s2 _ (by omega)) (by omega) (by omega)
@[simp] theorem sl_20 : sl (tab (h + 2) (w + 2) f) s2 s0m2 = tab h w fun i j => f (2 + i) (0 + j) :=
  sl_tab (len_s2 _) (len_s0m2 _) (fun _ => start_s2 _ (by omega))
    (fun _ => start_s0m2 _) (by omega) (by omega)
@[simp] theorem sl_00 : sl (tab (h + 2) (w + 2) f) s0m2 s0m2 = tab h w fun i j => f (0 + i) (0 + j) :=
  sl_tab (len_s0m2 _) (len_s0m2 _) (fun _ => start_s0m2 _)
    (fun _ => start_s0m2 _) (by omega) (by omega)
end slices

end Arr

/-! ### Operators on array-valued expressions that may raise -/

set_option linter.unusedSectionVars false
section ops
variable {α : Type} [Inhabited α]

/-- lift an element-wise operator to expressions that may raise -/
def Py.zip (f : α → α → α) (x y : Py (Arr α)) : Py (Arr α) :=
  match x, y with
  | .ok a, .ok b => Arr.zip f a b
  | .error e, _ => .error e
  | _, .error e => .error e

/-- `x + y` on arrays -/
instance [Add α] : Add (Py (Arr α)) := ⟨Py.zip (· + ·)⟩
/-- `x - y` on arrays -/
instance [Sub α] : Sub (Py (Arr α)) := ⟨Py.zip (· - ·)⟩
/-- `x * y` on arrays -/
instance [Mul α] : Mul (Py (Arr α)) := ⟨Py.zip (· * ·)⟩
/-- `x / y` on arrays (scalar division is totalised by `α`) -/
instance [Div α] : Div (Py (Arr α)) := ⟨Py.zip (· / ·)⟩
/-- `c * x`, Python scalar times array -/
instance [Mul α] : HMul α (Py (Arr α)) (Py (Arr α)) := ⟨fun c x => x.map (Arr.map (c * ·))⟩
/-- `x / c`, array divided by Python scalar -/
instance [Div α] : HDiv (Py (Arr α)) α (Py (Arr α)) := ⟨fun x c => x.map (Arr.map (· / c))⟩
/-- `x * c`, array times Python scalar -/
instance [Mul α] : HMul (Py (Arr α)) α (Py (Arr α)) := ⟨fun x c => x.map (Arr.map (· * c))⟩
/-- `x - c` -/
instance [Sub α] : HSub (Py (Arr α)) α (Py (Arr α)) := ⟨fun x c => x.map (Arr.map (· - c))⟩
/-- `-x` -/
instance [Neg α] : Neg (Py (Arr α)) := ⟨fun x => x.map (Arr.map (- ·))⟩

open Arr
variable (h w : Nat) (u v : Nat → Nat → α) (c : α)

@[simp] theorem ok_add [Add α] : (Except.ok (tab h w u) + Except.ok (tab h w v) : Py (Arr α)) =
    .ok (tab h w fun i j => u i j + v i j) := Arr.zip_tab ..
@[simp] theorem ok_sub [Sub α] : (Except.ok (tab h w u) - Except.ok (tab h w v) : Py (Arr α)) =
    .ok (tab h w fun i j => u i j - v i j) := Arr.zip_tab ..
@[simp] theorem ok_mul [Mul α] : (Except.ok (tab h w u) * Except.ok (tab h w v) : Py (Arr α)) =
    .ok (tab h w fun i j => u i j * v i j) := Arr.zip_tab ..
@[simp] theorem ok_div [Div α] : (Except.ok (tab h w u) / Except.ok (tab h w v) : Py (Arr α)) =
    .ok (tab h w fun i j => u i j / v i j) := Arr.zip_tab ..
@[simp] theorem ok_smul [Mul α] : (c * (Except.ok (tab h w u) : Py (Arr α)) : Py (Arr α)) =
    .ok (tab h w fun i j => c * u i j) := rfl
@[simp] theorem ok_muls [Mul α] : ((Except.ok (tab h w u) : Py (Arr α)) * c : Py (Arr α)) =
    .ok (tab h w fun i j => u i j * c) := rfl
@[simp] theorem ok_divs [Div α] : ((Except.ok (tab h w u) : Py (Arr α)) / c : Py (Arr α)) =
    .ok (tab h w fun i j => u i j / c) := rfl
@[simp] theorem ok_subs [Sub α] : ((Except.ok (tab h w u) : Py (Arr α)) - c : Py (Arr α)) =
    .ok (tab h w fun i j => u i j - c) := rfl
@[simp] theorem ok_neg [Neg α] : (- (Except.ok (tab h w u) : Py (Arr α)) : Py (Arr α)) =
    .ok (tab h w fun i j => - u i j) := rfl
end ops

end Verif
