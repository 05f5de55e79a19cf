import Verif.Spec.Stack
import Verif.Model.Stacked
import Verif.Model.Zonal
import Verif.Model.RunProperties

/-!
# Lemmas: functions on stacks work frame by frame
-/

set_option linter.unusedSectionVars false

namespace Verif.Stacked

open Spec Arr

variable {α β γ δ : Type} [Inhabited α] [Inhabited β] [Inhabited γ]

/-! ### Shapes -/

theorem getD_app0 (B : List ℕ) (h w : ℕ) : (B ++ [h, w]).getD ((B ++ [h, w]).length - 2) 0 = h := by
  simp [List.getD]

theorem getD_app1 (B : List ℕ) (h w : ℕ) : (B ++ [h, w]).getD ((B ++ [h, w]).length - 2 + 1) 0 = w := by
  simp [List.getD]

theorem take_app (B : List ℕ) (h w : ℕ) : (B ++ [h, w]).take ((B ++ [h, w]).length - 2) = B := by simp

theorem bshape_same : ∀ B : List ℕ, ∀ s t : List ℕ,
    Nd.bshape (B ++ s) (B ++ t) = (Nd.bshape s t).map (B ++ ·)
  | [], s, t => by simp
  | a :: B, s, t => by
    simp only [List.cons_append, Nd.bshape, bdim_self, bshape_same B s t]
    cases Nd.bshape s t <;> rfl

theorem bdim_one_right (a : ℕ) : bdim a 1 = some a := by unfold bdim; split_ifs <;> simp_all
theorem bdim_one_left (a : ℕ) : bdim 1 a = some a := by unfold bdim; split_ifs <;> simp_all

theorem bshape_ones_right : ∀ B s t : List ℕ,
    Nd.bshape (B ++ s) (List.replicate B.length 1 ++ t) = (Nd.bshape s t).map (B ++ ·)
  | [], s, t => by simp
  | a :: B, s, t => by
    simp only [List.cons_append, List.length_cons, List.replicate_succ, Nd.bshape, bdim_one_right, bshape_ones_right B s t]
    cases Nd.bshape s t <;> rfl

theorem bshape_ones_left : ∀ B s t : List ℕ,
    Nd.bshape (List.replicate B.length 1 ++ s) (B ++ t) = (Nd.bshape s t).map (B ++ ·)
  | [], s, t => by simp
  | a :: B, s, t => by
    simp only [List.cons_append, List.length_cons, List.replicate_succ, Nd.bshape, bdim_one_left, bshape_ones_left B s t]
    cases Nd.bshape s t <;> rfl

theorem bindex_self {B b : List ℕ} (hb : Nd.InRange B b) : Nd.bindex B b = b := by
  induction hb with
  | nil => rfl
  | cons h _ ih => 
    unfold Nd.bindex at ih ⊢
    simp only [List.zipWith_cons_cons, ih, bidx_lt h]

theorem bindex_app {B b : List ℕ} (hb : Nd.InRange B b) (s l : List ℕ) :
    Nd.bindex (B ++ s) (b ++ l) = b ++ Nd.bindex s l := by
  unfold Nd.bindex
  rw [List.zipWith_append hb.length.symm]
  congr 1
  exact bindex_self hb

/-! ### The relation between a stack computation and its frames -/

/-- `m` is `F b` at every leading index `b`, where `v` reads a result at `b` -/
def Per {σ : Type} (B : List ℕ) (P : σ → Prop) (v : σ → List ℕ → δ) (m : Py σ) (F : List ℕ → Py δ) : Prop :=
  match m with
  | .ok y => P y ∧ ∀ b, Nd.InRange B b → F b = .ok (v y b)
  | .error e => ∀ b, Nd.InRange B b → F b = .error e

theorem Per.ok {σ : Type} {B : List ℕ} {P : σ → Prop} {v : σ → List ℕ → δ} {y : σ} {F : List ℕ → Py δ}
    (h1 : P y) (h2 : ∀ b, Nd.InRange B b → F b = .ok (v y b)) : Per B P v (.ok y) F := ⟨h1, h2⟩

theorem Per.err {σ : Type} {B : List ℕ} {P : σ → Prop} {v : σ → List ℕ → δ} {e : PyErr} {F : List ℕ → Py δ}
    (h : ∀ b, Nd.InRange B b → F b = .error e) : Per B P v (.error e) F := h

theorem Per.bind {σ τ ε : Type} {B : List ℕ} {P : σ → Prop} {v : σ → List ℕ → δ} {Q : τ → Prop} {u : τ → List ℕ → ε}
    {m : Py σ} {F : List ℕ → Py δ} {k : σ → Py τ} {K : List ℕ → δ → Py ε} (h : Per B P v m F)
    (hk : ∀ y, P y → Per B Q u (k y) fun b => K b (v y b)) : Per B Q u (m >>= k) fun b => F b >>= K b := by
  cases m with
  | error e =>
    intro b hb
    have := h b hb
    dsimp only at this ⊢
    rw [this]; rfl
  | ok y =>
    obtain ⟨h1, h2⟩ := h
    have := hk y h1
    change Per B Q u (k y) _
    revert this
    generalize k y = r
    intro this
    cases r with
    | ok z =>
      refine ⟨this.1, fun b hb => ?_⟩
      dsimp only
      rw [h2 b hb]; exact this.2 b hb
    | error e =>
      intro b hb
      dsimp only
      rw [h2 b hb]; exact this b hb

/-- last but one axis -/
def ht (x : Nd α) : ℕ := x.shape.getD (x.shape.length - 2) 0
/-- last axis -/
def wd (x : Nd α) : ℕ := x.shape.getD (x.shape.length - 2 + 1) 0
/-- frame at `b` -/
def fr (x : Nd α) (b : List ℕ) : Arr α := frame (ht x) (wd x) x b
/-- row at `b` -/
def rw' (x : Nd α) (b : List ℕ) : List α := row (x.shape.getD (x.shape.length - 1) 0) x b
/-- a stack -/
def IsStk (B : List ℕ) (x : Nd α) : Prop := ∃ h w, x.shape = B ++ [h, w]
/-- a stack of rows -/
def IsRow (B : List ℕ) (x : Nd α) : Prop := ∃ m, x.shape = B ++ [m]

theorem ht_of {B : List ℕ} {x : Nd α} {h w : ℕ} (e : x.shape = B ++ [h, w]) : ht x = h := by
  unfold ht; rw [e, getD_app0]
theorem wd_of {B : List ℕ} {x : Nd α} {h w : ℕ} (e : x.shape = B ++ [h, w]) : wd x = w := by
  unfold wd; rw [e, getD_app1]
theorem fr_of {B : List ℕ} {x : Nd α} {h w : ℕ} (e : x.shape = B ++ [h, w]) (b : List ℕ) :
    fr x b = tab h w fun i j => x.get (b ++ [i, j]) := by
  unfold fr frame; rw [ht_of e, wd_of e]
theorem rw_of {B : List ℕ} {x : Nd α} {m : ℕ} (e : x.shape = B ++ [m]) (b : List ℕ) :
    rw' x b = (List.range m).map fun i => x.get (b ++ [i]) := by
  unfold rw' row; rw [e]; simp [List.getD]

theorem Per.toFrame {B : List ℕ} {m : Py (Nd α)} {F : List ℕ → Py (Arr α)} (h : Per B (IsStk B) fr m F) :
    FramePerFrame B m F := by
  cases m with
  | error e => exact h
  | ok y =>
    obtain ⟨⟨a, w, e⟩, h2⟩ := h
    exact ⟨a, w, e, fun b hb => by rw [h2 b hb, fr_of e]; rfl⟩

theorem Per.toRow {B : List ℕ} {m : Py (Nd α)} {F : List ℕ → Py (List α)} (h : Per B (IsRow B) rw' m F) :
    RowPerFrame B m F := by
  cases m with
  | error e => exact h
  | ok y =>
    obtain ⟨⟨a, e⟩, h2⟩ := h
    exact ⟨a, e, fun b hb => by rw [h2 b hb, rw_of e]; rfl⟩

theorem Per.toNumber {B : List ℕ} {m : Py (Nd α)} {F : List ℕ → Py α}
    (h : Per B (fun y => y.shape = B) Nd.get m F) : NumberPerFrame B m F := by
  cases m with
  | error e => exact h
  | ok y => exact h

/-! ### Operations -/

theorem take_len {B b : List ℕ} (hb : Nd.InRange B b) (l : List ℕ) : (b ++ l).take B.length = b := by
  rw [← hb.length]; simp

theorem getD_len {B b : List ℕ} (hb : Nd.InRange B b) (l : List ℕ) (k : ℕ) : (b ++ l).getD (B.length + k) 0 = l.getD k 0 := by
  rw [← hb.length, List.getD, List.getD, List.getElem?_append_right (by omega)]
  simp

theorem adjust_le (n : ℕ) (i : ℤ) : adjust n i ≤ n := by unfold adjust; omega

theorem stop_le (s : Sl) (n : ℕ) : s.stop n ≤ n := by
  unfold Sl.stop; split
  · exact le_rfl
  · exact adjust_le _ _

theorem sl_tab' (r c : Sl) (h w : ℕ) (f : ℕ → ℕ → α) :
    (tab h w f).sl r c = tab (r.len h) (c.len w) fun i j => f (r.start h + i) (c.start w + j) := by
  refine tab_congr rfl rfl fun i j hi hj => ?_
  simp only [tab_h, tab_w] at hi hj ⊢
  have := stop_le r h
  have := stop_le c w
  unfold Sl.len at hi hj
  rw [tab_at' _ _ _ (by omega) (by omega)]

theorem per_slLast {B : List ℕ} {x : Nd α} (hx : IsStk B x) (r c : Sl) :
    Per B (IsStk B) fr (x.slLast r c) fun b => .ok ((fr x b).sl r c) := by
  obtain ⟨h, w, e⟩ := hx
  have e0 : x.shape.length - 2 = B.length := by rw [e]; simp
  unfold Nd.slLast
  rw [if_neg (by rw [e]; simp)]
  have g0 : x.shape.getD (x.shape.length - 2) 0 = h := ht_of e
  have g1 : x.shape.getD (x.shape.length - 2 + 1) 0 = w := wd_of e
  simp only [g0, g1]
  rw [e0]
  have t : x.shape.take B.length = B := by rw [e]; simp
  rw [t]
  refine Per.ok ⟨_, _, rfl⟩ fun b hb => ?_
  rw [fr_of e, fr_of rfl, sl_tab']
  congr 1
  refine tab_congr rfl rfl fun i j _ _ => ?_
  dsimp only
  rw [take_len hb, getD_len hb, show B.length = B.length + 0 from rfl, getD_len hb]
  rfl

theorem per_map {B : List ℕ} {x : Nd α} (hx : IsStk B x) (f : α → β) :
    IsStk B (x.map f) ∧ ∀ b, fr (x.map f) b = (fr x b).map f := ⟨hx, fun _ => rfl⟩

theorem replicate_zero_rank {x : Nd α} {B : List ℕ} {h w : ℕ} (e : x.shape = B ++ [h, w]) : x.rank = B.length + 2 := by
  unfold Nd.rank; rw [e]; simp

theorem lead_zero (x : Nd α) : Nd.lead 0 x = x := rfl

theorem per_bzip {B : List ℕ} {x : Nd α} {y : Nd β} (hx : IsStk B x) (hy : IsStk B y) (f : α → β → γ) :
    Per B (IsStk B) fr (Nd.bzip f x y) fun b => Arr.zip f (fr x b) (fr y b) := by
  obtain ⟨h, w, e⟩ := hx
  obtain ⟨h', w', e'⟩ := hy
  unfold Nd.bzip
  rw [replicate_zero_rank e, replicate_zero_rank e', Nat.sub_self, lead_zero, lead_zero]
  unfold Nd.zip
  rw [e, e', bshape_same]
  simp only [Nd.bshape]
  have hz : ∀ b, Nd.InRange B b → Arr.zip f (fr x b) (fr y b) = match bdim h h', bdim w w' with
      | some a, some c => .ok (tab a c fun i j => f (x.get (b ++ [bidx h i, bidx w j])) (y.get (b ++ [bidx h' i, bidx w' j])))
      | _, _ => .error .valueError := by
    intro b hb
    rw [fr_of e, fr_of e']
    unfold Arr.zip
    simp only [tab_h, tab_w]
    cases h1 : bdim h h' with
    | none => rfl
    | some a =>
      cases h2 : bdim w w' with
      | none => rfl
      | some c =>
        simp only
        congr 1
        refine tab_congr rfl rfl fun i j hi hj => ?_
        have q : ∀ {p q r s : ℕ}, bdim p q = some r → s < r → bidx p s < p ∧ bidx q s < q := by
          intro p q r s h1 hs
          unfold bdim at h1
          split_ifs at h1 <;> (injection h1 with h1; subst h1) <;> unfold bidx <;> constructor <;> split_ifs <;> omega
        obtain ⟨i1, i2⟩ := q h1 hi
        obtain ⟨j1, j2⟩ := q h2 hj
        rw [tab_at' _ _ _ i1 j1, tab_at' _ _ _ i2 j2]
  cases h1 : bdim h h' with
  | none =>
    simp only [Option.map_none]
    refine Per.err fun b hb => ?_
    rw [hz b hb, h1]
  | some a =>
    cases h2 : bdim w w' with
    | none =>
      simp only [Option.map_none]
      refine Per.err fun b hb => ?_
      rw [hz b hb, h1, h2]
    | some c =>
      simp only [Option.map_some]
      refine Per.ok ⟨a, c, rfl⟩ fun b hb => ?_
      rw [hz b hb, h1, h2, fr_of rfl]
      simp only
      congr 1
      refine tab_congr rfl rfl fun i j _ _ => ?_
      rw [bindex_app hb, bindex_app hb]
      rfl

theorem any_lead (B : List ℕ) (h w : ℕ) :
    ((B ++ [h, w]).zip (List.replicate B.length (0, 0) ++ [(1, 1), (1, 1)])).any
      (fun q => q.1 == 0 && (0 < q.2.1 || 0 < q.2.2)) = (h == 0 || w == 0) := by
  induction B with
  | nil => simp
  | cons a B ih => simpa [List.replicate_succ] using ih

theorem padShape (B : List ℕ) (h w : ℕ) :
    List.zipWith (fun n (p : ℕ × ℕ) => p.1 + n + p.2) (B ++ [h, w])
      (List.replicate B.length (0, 0) ++ [(1, 1), (1, 1)]) = B ++ [1 + h + 1, 1 + w + 1] := by
  induction B with
  | nil => rfl
  | cons a B ih => simpa [List.replicate_succ] using ih

theorem wrapIdx_zero {n i : ℕ} (h : i < n) : wrapIdx n 0 i = i := by
  unfold wrapIdx
  rw [show ((i : ℤ) - (0 : ℕ)) = i by simp, Int.emod_eq_of_lt (by omega) (by omega)]
  simp

theorem padIndex {B b : List ℕ} (hb : Nd.InRange B b) (h w i j : ℕ) :
    List.zipWith (fun (q : ℕ × ℕ × ℕ) i => wrapIdx q.1 q.2.1 i)
      ((B ++ [h, w]).zip (List.replicate B.length (0, 0) ++ [(1, 1), (1, 1)])) (b ++ [i, j])
      = b ++ [wrapIdx h 1 i, wrapIdx w 1 j] := by
  induction hb with
  | nil => rfl
  | @cons a n r s ha hr ih =>
    simp only [List.cons_append, List.length_cons, List.replicate_succ, List.zip_cons_cons, List.zipWith_cons_cons]
    rw [wrapIdx_zero ha]
    exact congrArg _ ih

theorem per_padWrap {B : List ℕ} {x : Nd α} (hx : IsStk B x) :
    Per B (IsStk B) fr (x.padWrap (List.replicate B.length (0, 0) ++ [(1, 1), (1, 1)]))
      fun b => (fr x b).padWrap 1 := by
  obtain ⟨h, w, e⟩ := hx
  unfold Nd.padWrap
  rw [if_neg (by rw [e]; simp), e, any_lead, padShape]
  by_cases h0 : h = 0 ∨ w = 0
  · rw [if_pos (by rcases h0 with h0 | h0 <;> simp [h0])]
    refine Per.err fun b hb => ?_
    rw [fr_of e]
    unfold Arr.padWrap
    rw [if_pos ⟨by omega, h0⟩]
  · rw [if_neg (by simpa using h0)]
    push Not at h0
    refine Per.ok ⟨_, _, rfl⟩ fun b hb => ?_
    rw [fr_of e, fr_of rfl]
    unfold Arr.padWrap
    rw [if_neg (by simp only [tab_h, tab_w]; omega)]
    congr 1
    refine tab_congr (by simp only [tab_h]; omega) (by simp only [tab_w]; omega) fun i j _ _ => ?_
    dsimp only
    rw [padIndex hb]
    simp only [tab_h, tab_w]
    rw [tab_at' _ _ _ (wrapIdx_lt (by omega)) (wrapIdx_lt (by omega))]

theorem per_meanLast2 {B : List ℕ} {x : Nd ℝ} (hx : IsStk B x) :
    Per B (fun y => y.shape = B) Nd.get x.meanLast2 fun b => .ok (fr x b).mean := by
  obtain ⟨h, w, e⟩ := hx
  have e0 : x.shape.length - 2 = B.length := by rw [e]; simp
  unfold Nd.meanLast2
  rw [if_neg (by rw [e]; simp)]
  have g0 : x.shape.getD (x.shape.length - 2) 0 = h := ht_of e
  have g1 : x.shape.getD (x.shape.length - 2 + 1) 0 = w := wd_of e
  simp only [g0, g1]
  have t : x.shape.take (x.shape.length - 2) = B := by rw [e0, e]; simp
  rw [t]
  refine Per.ok rfl fun b hb => ?_
  rw [fr_of e]
  congr 1
  unfold Arr.mean Arr.sum
  simp only [tab_h, tab_w]
  congr 1
  rw [Finset.sum_range]
  refine Finset.sum_congr rfl fun i _ => ?_
  rw [Finset.sum_range]
  rfl

theorem per_meanLast {B : List ℕ} {x : Nd ℝ} (hx : IsStk B x) :
    Per B (IsRow B) rw' x.meanLast fun b => .ok (Properties.meanLast (fr x b)) := by
  obtain ⟨h, w, e⟩ := hx
  have e0 : x.shape.length - 1 = (B ++ [h]).length := by rw [e]; simp
  have e1 : x.shape = (B ++ [h]) ++ [w] := by rw [e]; simp
  unfold Nd.meanLast
  rw [if_neg (by rw [e]; simp)]
  have g : x.shape.getD (x.shape.length - 1) 0 = w := by rw [e]; simp [List.getD]
  simp only [g]
  have t : x.shape.take (x.shape.length - 1) = B ++ [h] := by rw [e0, e1]; exact List.take_left
  rw [t]
  refine Per.ok ⟨_, rfl⟩ fun b hb => ?_
  rw [fr_of e, rw_of rfl]
  congr 1
  unfold Properties.meanLast
  simp only [tab_h, tab_w]
  rw [List.ofFn_eq_map, ← List.map_coe_finRange_eq_range, List.map_map]
  refine List.map_congr_left fun i _ => ?_
  simp only [Function.comp]
  congr 1
  rw [Finset.sum_range]
  refine Finset.sum_congr rfl fun j _ => ?_
  simp [tab]

theorem per_mean1 {B : List ℕ} {x : Nd ℝ} (hx : IsRow B x) :
    Per B (fun y => y.shape = B) Nd.get x.meanLast fun b => .ok (Properties.mean1 (rw' x b)) := by
  obtain ⟨m, e⟩ := hx
  unfold Nd.meanLast
  rw [if_neg (by rw [e]; simp)]
  have g : x.shape.getD (x.shape.length - 1) 0 = m := by rw [e]; simp [List.getD]
  simp only [g]
  have t : x.shape.take (x.shape.length - 1) = B := by rw [e]; simp
  rw [t]
  refine Per.ok rfl fun b hb => ?_
  rw [rw_of e]
  congr 1
  unfold Properties.mean1
  simp only [List.length_map, List.length_range]
  congr 1

theorem per_takeLast {B : List ℕ} {x : Nd α} (hx : IsRow B x) (k : ℕ) :
    Per B (IsRow B) rw' (x.takeLast k) fun b => .ok ((rw' x b).take k) := by
  obtain ⟨m, e⟩ := hx
  unfold Nd.takeLast
  rw [if_neg (by rw [e]; simp)]
  have g : x.shape.getD (x.shape.length - 1) 0 = m := by rw [e]; simp [List.getD]
  simp only [g]
  have t : x.shape.take (x.shape.length - 1) = B := by rw [e]; simp
  rw [t]
  refine Per.ok ⟨_, rfl⟩ fun b hb => ?_
  rw [rw_of e, rw_of rfl, ← List.map_take, List.take_range]

theorem per_fft {B : List ℕ} {x : Nd ℂ} (hx : IsStk B x) :
    Per B (IsStk B) fr x.fft2 fun b => Arr.fft2 (fr x b) := by
  obtain ⟨h, w, e⟩ := hx
  have e0 : x.shape.length - 2 = B.length := by rw [e]; simp
  unfold Nd.fft2
  have g0 : x.shape.getD (x.shape.length - 2) 0 = h := ht_of e
  have g1 : x.shape.getD (x.shape.length - 2 + 1) 0 = w := wd_of e
  simp only [g0, g1]
  rw [if_neg (by rw [e]; simp)]
  by_cases h0 : h = 0 ∨ w = 0
  · rw [if_pos h0]
    refine Per.err fun b hb => ?_
    rw [fr_of e]
    unfold Arr.fft2
    simp only [tab_h, tab_w, h0, if_true]
  · rw [if_neg h0]
    refine Per.ok ⟨h, w, e⟩ fun b hb => ?_
    rw [fr_of e, fr_of (B := B) (h := h) (w := w) (by exact e)]
    unfold Arr.fft2
    simp only [tab_h, tab_w, h0, if_false]
    congr 1
    refine tab_congr rfl rfl fun i j _ _ => ?_
    rw [e0, take_len hb, getD_len hb, show (b ++ [i, j]).getD B.length 0 = i from getD_len hb [i, j] 0]
    rw [Finset.sum_range]
    refine Finset.sum_congr rfl fun m _ => ?_
    rw [Finset.sum_range]
    rfl

theorem per_ifft {B : List ℕ} {x : Nd ℂ} (hx : IsStk B x) :
    Per B (IsStk B) fr x.ifft2 fun b => Arr.ifft2 (fr x b) := by
  obtain ⟨h, w, e⟩ := hx
  have e0 : x.shape.length - 2 = B.length := by rw [e]; simp
  unfold Nd.ifft2
  have g0 : x.shape.getD (x.shape.length - 2) 0 = h := ht_of e
  have g1 : x.shape.getD (x.shape.length - 2 + 1) 0 = w := wd_of e
  simp only [g0, g1]
  rw [if_neg (by rw [e]; simp)]
  by_cases h0 : h = 0 ∨ w = 0
  · rw [if_pos h0]
    refine Per.err fun b hb => ?_
    rw [fr_of e]
    unfold Arr.ifft2
    simp only [tab_h, tab_w, h0, if_true]
  · rw [if_neg h0]
    refine Per.ok ⟨h, w, e⟩ fun b hb => ?_
    rw [fr_of e, fr_of (B := B) (h := h) (w := w) (by exact e)]
    unfold Arr.ifft2
    simp only [tab_h, tab_w, h0, if_false]
    congr 1
    refine tab_congr rfl rfl fun i j _ _ => ?_
    rw [e0, take_len hb, getD_len hb, show (b ++ [i, j]).getD B.length 0 = i from getD_len hb [i, j] 0]
    congr 1
    rw [Finset.sum_range]
    refine Finset.sum_congr rfl fun m _ => ?_
    rw [Finset.sum_range]
    rfl

theorem per_fft2 {B : List ℕ} {x : Nd ℂ} (hx : IsStk B x) :
    Per B (IsStk B) fr x.fft2Ortho fun b => Arr.fft2Ortho (fr x b) := by
  obtain ⟨h, w, e⟩ := id hx
  unfold Nd.fft2Ortho Arr.fft2Ortho
  have g0 : x.shape.getD (x.shape.length - 2) 0 = h := ht_of e
  have g1 : x.shape.getD (x.shape.length - 2 + 1) 0 = w := wd_of e
  simp only [g0, g1]
  have g2 : ∀ b, (fr x b).h = h := fun b => by rw [fr_of e]; rfl
  have g3 : ∀ b, (fr x b).w = w := fun b => by rw [fr_of e]; rfl
  simp only [g2, g3]
  exact Per.bind (per_fft hx) fun y hy => Per.ok hy fun _ _ => rfl

theorem drop_len {B b : List ℕ} (hb : Nd.InRange B b) (l : List ℕ) : (b ++ l).drop B.length = l := by
  rw [← hb.length]; simp

theorem ofArr_rank (a : Arr α) : (Nd.ofArr a).rank = 2 := rfl

theorem bidx_bdim {p q r s : ℕ} (h1 : bdim p q = some r) (hs : s < r) : bidx p s < p ∧ bidx q s < q := by
  unfold bdim at h1
  split_ifs at h1 <;> (injection h1 with h1; subst h1) <;> unfold bidx <;> constructor <;> split_ifs <;> omega

theorem bindex_ones {B b : List ℕ} (hb : Nd.InRange B b) (s l : List ℕ) :
    Nd.bindex (List.replicate B.length 1 ++ s) (b ++ l) = List.replicate B.length 0 ++ Nd.bindex s l := by
  induction hb with
  | nil => rfl
  | cons h _ ih =>
    unfold Nd.bindex at ih ⊢
    simp only [List.length_cons, List.replicate_succ, List.cons_append, List.zipWith_cons_cons, ih]
    rfl

theorem inRange_zeros (B : List ℕ) : (List.replicate B.length 0).length = B.length := by simp

/-- a stack combined with one two-dimensional array -/
theorem per_bzip_right {B : List ℕ} {x : Nd α} (hx : IsStk B x) (a : Arr β) (f : α → β → γ) :
    Per B (IsStk B) fr (Nd.bzip f x (Nd.ofArr a)) fun b => Arr.zip f (fr x b) a := by
  obtain ⟨h, w, e⟩ := hx
  unfold Nd.bzip
  rw [replicate_zero_rank e, ofArr_rank, show 2 - (B.length + 2) = 0 by omega,
    show B.length + 2 - 2 = B.length by omega, lead_zero]
  unfold Nd.zip
  have e' : (Nd.lead B.length (Nd.ofArr a)).shape = List.replicate B.length 1 ++ [a.h, a.w] := rfl
  rw [e, e', bshape_ones_right]
  simp only [Nd.bshape]
  cases h1 : bdim h a.h with
  | none =>
    simp only [Option.map_none]
    refine Per.err fun b hb => ?_
    rw [fr_of e]; unfold Arr.zip; simp only [tab_h, h1]
  | some u =>
    cases h2 : bdim w a.w with
    | none =>
      simp only [Option.map_none]
      refine Per.err fun b hb => ?_
      rw [fr_of e]; unfold Arr.zip; simp only [tab_h, tab_w, h1, h2]
    | some v =>
      simp only [Option.map_some]
      refine Per.ok ⟨u, v, rfl⟩ fun b hb => ?_
      rw [fr_of e, fr_of rfl]; unfold Arr.zip; simp only [tab_h, tab_w, h1, h2]
      congr 1
      refine tab_congr rfl rfl fun i j hi hj => ?_
      rw [tab_at' _ _ _ (bidx_bdim h1 hi).1 (bidx_bdim h2 hj).1, bindex_app hb, bindex_ones hb]
      unfold Nd.lead Nd.ofArr
      simp only
      rw [show List.drop B.length (List.replicate B.length (0 : ℕ) ++ Nd.bindex [a.h, a.w] [i, j]) = Nd.bindex [a.h, a.w] [i, j] by simp]
      rfl

/-- one two-dimensional array combined with a stack -/
theorem per_bzip_left {B : List ℕ} {x : Nd α} (hx : IsStk B x) (a : Arr β) (f : β → α → γ) :
    Per B (IsStk B) fr (Nd.bzip f (Nd.ofArr a) x) fun b => Arr.zip f a (fr x b) := by
  obtain ⟨h, w, e⟩ := hx
  unfold Nd.bzip
  rw [replicate_zero_rank e, ofArr_rank, show 2 - (B.length + 2) = 0 by omega,
    show B.length + 2 - 2 = B.length by omega, lead_zero]
  unfold Nd.zip
  have e' : (Nd.lead B.length (Nd.ofArr a)).shape = List.replicate B.length 1 ++ [a.h, a.w] := rfl
  rw [e, e', bshape_ones_left]
  simp only [Nd.bshape]
  cases h1 : bdim a.h h with
  | none =>
    simp only [Option.map_none]
    refine Per.err fun b hb => ?_
    rw [fr_of e]; unfold Arr.zip; simp only [tab_h, h1]
  | some u =>
    cases h2 : bdim a.w w with
    | none =>
      simp only [Option.map_none]
      refine Per.err fun b hb => ?_
      rw [fr_of e]; unfold Arr.zip; simp only [tab_h, tab_w, h1, h2]
    | some v =>
      simp only [Option.map_some]
      refine Per.ok ⟨u, v, rfl⟩ fun b hb => ?_
      rw [fr_of e, fr_of rfl]; unfold Arr.zip; simp only [tab_h, tab_w, h1, h2]
      congr 1
      refine tab_congr rfl rfl fun i j hi hj => ?_
      rw [tab_at' _ _ _ (bidx_bdim h1 hi).2 (bidx_bdim h2 hj).2, bindex_app hb, bindex_ones hb]
      unfold Nd.lead Nd.ofArr
      simp only
      rw [show List.drop B.length (List.replicate B.length (0 : ℕ) ++ Nd.bindex [a.h, a.w] [i, j]) = Nd.bindex [a.h, a.w] [i, j] by simp]
      rfl

theorem per_meanLast2Keep {B : List ℕ} {x : Nd ℝ} (hx : IsStk B x) :
    Per B (IsStk B) fr x.meanLast2Keep fun b => .ok (tab 1 1 fun _ _ => (fr x b).mean) := by
  have h := per_meanLast2 hx
  unfold Nd.meanLast2Keep
  generalize x.meanLast2 = m at h
  cases m with
  | error e => exact fun b hb => nomatch h b hb
  | ok y =>
    obtain ⟨h1, h2⟩ := h
    refine Per.ok ⟨1, 1, by rw [h1]⟩ fun b hb => ?_
    have := h2 b hb
    injection this with this
    rw [this, fr_of (B := B) (h := 1) (w := 1) (by simp only [h1])]
    congr 1
    refine tab_congr rfl rfl fun i j _ _ => ?_
    simp only
    rw [h1, take_len hb]

theorem per_meanRowsKeep {B : List ℕ} {x : Nd ℝ} (hx : IsStk B x) :
    Per B (IsStk B) fr x.meanRowsKeep fun b => .ok (fr x b).meanRows := by
  obtain ⟨h, w, e⟩ := hx
  have e0 : x.shape.length - 2 = B.length := by rw [e]; simp
  unfold Nd.meanRowsKeep
  rw [if_neg (by rw [e]; simp)]
  have g0 : x.shape.getD (x.shape.length - 2) 0 = h := ht_of e
  have g1 : x.shape.getD (x.shape.length - 2 + 1) 0 = w := wd_of e
  simp only [g0, g1]
  have t : x.shape.take (x.shape.length - 2) = B := by rw [e0, e]; simp
  rw [t]
  refine Per.ok ⟨_, _, rfl⟩ fun b hb => ?_
  rw [fr_of e, fr_of rfl]
  congr 1
  unfold Arr.meanRows
  simp only [tab_h, tab_w]
  unfold tab
  congr 1
  funext i j
  simp only
  congr 1
  rw [Finset.sum_range]
  refine Finset.sum_congr rfl fun m _ => ?_
  rw [e0, take_len hb, getD_len hb]
  rfl

/-! ### Stencils -/

section stencils

variable [Add α] [Sub α] [Mul α] [Div α] [NatCast α] [Pow α ℕ]

theorem per_ret {B : List ℕ} {x : Nd α} (hx : IsStk B x) (f : α → β) :
    Per B (IsStk B) fr (pure (x.map f) : Py (Nd β)) fun b => pure ((fr x b).map f) :=
  Per.ok hx fun _ _ => rfl

theorem py_zip_ok (f : α → α → α) (x : Py (Arr α)) (y : Arr α) :
    Py.zip f x (.ok y) = x >>= fun a => Arr.zip f a y := by
  cases x <;> rfl

theorem map_do {σ τ : Type} (f : σ → τ) (x : Py σ) : Except.map f x = x >>= fun a => pure (f a) := by
  cases x <;> rfl

theorem laplace_do (p : Arr α) (dx : α) : NumpyGradients.laplace p dx = (do
    let above ← .ok (p.sl s0m2 s1m1)
    let left ← .ok (p.sl s1m1 s0m2)
    let center ← .ok (p.sl s1m1 s1m1)
    let right ← .ok (p.sl s1m1 s2)
    let below ← .ok (p.sl s2 s1m1)
    let s ← Arr.zip (· + ·) above left
    let s ← Arr.zip (· - ·) s (center.map (((4 : ℕ) : α) * ·))
    let s ← Arr.zip (· + ·) s right
    let s ← Arr.zip (· + ·) s below
    pure (s.map (· / dx ^ 2))) := by
  simp only [Py.ok_bind]
  unfold NumpyGradients.laplace
  change Except.map _ (Py.zip _ (Py.zip _ (Py.zip _ (Arr.zip _ _ _) (.ok _)) (.ok _)) (.ok _)) = _
  rw [py_zip_ok, py_zip_ok, py_zip_ok]
  rw [map_do]
  simp only [bind_assoc]

theorem per_laplace {B : List ℕ} {x : Nd α} (hx : IsStk B x) (dx : α) :
    Per B (IsStk B) fr (laplace x dx) fun b => NumpyGradients.laplace (fr x b) dx := by
  simp only [laplace_do]
  unfold laplace
  refine Per.bind (per_slLast hx _ _) fun above h1 => ?_
  refine Per.bind (per_slLast hx _ _) fun left h2 => ?_
  refine Per.bind (per_slLast hx _ _) fun center h3 => ?_
  refine Per.bind (per_slLast hx _ _) fun right h4 => ?_
  refine Per.bind (per_slLast hx _ _) fun below h5 => ?_
  refine Per.bind (per_bzip h1 h2 _) fun s hs => ?_
  refine Per.bind (per_bzip hs (per_map h3 _).1 _) fun s hs => ?_
  refine Per.bind (per_bzip hs h4 _) fun s hs => ?_
  refine Per.bind (per_bzip hs h5 _) fun s hs => ?_
  exact per_ret hs _

theorem per_padLast {B : List ℕ} {x : Nd α} (hx : IsStk B x) :
    padLast x.rank = .ok (List.replicate B.length (0, 0) ++ [(1, 1), (1, 1)]) := by
  obtain ⟨h, w, e⟩ := hx
  unfold padLast
  rw [replicate_zero_rank e, if_neg (by omega), show B.length + 2 - 2 = B.length by omega]

theorem per_periodic_laplace {B : List ℕ} {x : Nd α} (hx : IsStk B x) (dx : α) :
    Per B (IsStk B) fr (periodic_laplace x dx) fun b => NumpyGradients.periodic_laplace (fr x b) dx := by
  have e : periodic_laplace x dx
      = x.padWrap (List.replicate B.length (0, 0) ++ [(1, 1), (1, 1)]) >>= fun y => laplace y dx := by
    unfold periodic_laplace
    split_ifs with h
    · rw [per_padLast hx]; rfl
    · obtain ⟨h', w, e⟩ := hx
      rw [replicate_zero_rank e] at h ⊢
      have : B = [] := List.eq_nil_of_length_eq_zero (by omega)
      subst this; rfl
  rw [e]
  exact Per.bind (per_padWrap hx) fun y hy => per_laplace hy dx

theorem per_laplace_N {B : List ℕ} (dx : α) : ∀ (N : ℕ) {x : Nd α}, IsStk B x →
    Per B (IsStk B) fr (periodic_laplace_N x dx N) fun b => NumpyGradients.periodic_laplace_N (fr x b) dx N
  | 0, x, hx => Per.ok hx fun _ _ => rfl
  | N + 1, x, hx => by
    unfold periodic_laplace_N NumpyGradients.periodic_laplace_N
    exact Per.bind (per_periodic_laplace hx dx) fun y hy => per_laplace_N dx N hy

theorem per_centered {B : List ℕ} {x : Nd α} (hx : IsStk B x) (dx : α) (r c r' c' : Sl) :
    Per B (IsStk B) fr (centered (x.slLast r c) (x.slLast r' c') dx)
      fun b => (.ok ((fr x b).sl r c) - .ok ((fr x b).sl r' c') : Py (Arr α)) / (((2 : ℕ) : α) * dx) := by
  have : ∀ b, ((.ok ((fr x b).sl r c) - .ok ((fr x b).sl r' c') : Py (Arr α)) / (((2 : ℕ) : α) * dx)) = (do
      let a ← .ok ((fr x b).sl r c)
      let c ← .ok ((fr x b).sl r' c')
      let d ← Arr.zip (· - ·) a c
      pure (d.map (· / (((2 : ℕ) : α) * dx)))) := by
    intro b
    simp only [Py.ok_bind]
    change Except.map _ (Arr.zip _ _ _) = _
    rw [map_do]
  simp only [this]
  unfold centered
  refine Per.bind (per_slLast hx _ _) fun a ha => ?_
  refine Per.bind (per_slLast hx _ _) fun c hc => ?_
  refine Per.bind (per_bzip ha hc _) fun d hd => ?_
  exact per_ret hd _

theorem per_gradient {B : List ℕ} {x : Nd α} (hx : IsStk B x) (dx : α) (axis : ℤ) (hax : axis < 0) :
    Per B (IsStk B) fr (gradient x dx axis) fun b => NumpyGradients.gradient (fr x b) dx axis := by
  unfold gradient NumpyGradients.gradient
  simp only [show ¬ axis = 0 by omega, show ¬ axis = 1 by omega, if_false]
  split_ifs
  · exact per_centered hx dx _ _ _ _
  · exact per_centered hx dx _ _ _ _
  · exact Per.err fun _ _ => rfl

theorem per_periodic_gradient {B : List ℕ} {x : Nd α} (hx : IsStk B x) (dx : α) (axis : ℤ) (hax : axis < 0) :
    Per B (IsStk B) fr (periodic_gradient x dx axis) fun b => NumpyGradients.periodic_gradient (fr x b) dx axis := by
  unfold periodic_gradient NumpyGradients.periodic_gradient
  simp only [hax, if_true, per_padLast hx, Py.ok_bind]
  exact Per.bind (per_padWrap hx) fun y hy => per_gradient hy dx axis hax

end stencils

/-! ### Diagnostics -/

theorem per_mean_ret {B : List ℕ} {x : Nd ℝ} (hx : IsStk B x) (f : ℝ → ℝ) :
    Per B (fun y => y.shape = B) Nd.get (x.meanLast2 >>= fun m => pure (m.map f)) fun b => pure (f (fr x b).mean) := by
  have h := per_meanLast2 hx
  generalize x.meanLast2 = m at h
  cases m with
  | error e => exact fun b hb => nomatch h b hb
  | ok y =>
    refine Per.ok h.1 fun b hb => ?_
    have := h.2 b hb
    injection this with this
    rw [this]; rfl

theorem per_gamma_n {B : List ℕ} {n p : Nd ℝ} (hn : IsStk B n) (hp : IsStk B p) (dx : ℝ) :
    Per B (fun y => y.shape = B) Nd.get (get_gamma_n n p dx) fun b => Properties.get_gamma_n (fr n b) (fr p b) dx := by
  unfold get_gamma_n Properties.get_gamma_n
  refine Per.bind (per_periodic_gradient hp dx (-2) (by norm_num)) fun d hd => ?_
  refine Per.bind (per_bzip hn hd _) fun q hq => ?_
  exact per_mean_ret hq _

theorem per_gamma_n_dy {B : List ℕ} {n p d : Nd ℝ} (hn : IsStk B n) (hd : IsStk B d) (dx : ℝ) :
    Per B (fun y => y.shape = B) Nd.get (get_gamma_n n p dx (some d))
      fun b => Properties.get_gamma_n (fr n b) (fr p b) dx (some (fr d b)) := by
  unfold get_gamma_n Properties.get_gamma_n
  simp only [Py.ok_bind]
  refine Per.bind (per_bzip hn hd _) fun q hq => ?_
  exact per_mean_ret hq _

theorem per_gamma_c {B : List ℕ} {n p : Nd ℝ} (hn : IsStk B n) (hp : IsStk B p) (c1 dx : ℝ) :
    Per B (fun y => y.shape = B) Nd.get (get_gamma_c n p c1 dx) fun b => Properties.get_gamma_c (fr n b) (fr p b) c1 dx := by
  unfold get_gamma_c Properties.get_gamma_c
  refine Per.bind (per_bzip hn hp _) fun q hq => ?_
  exact per_mean_ret (per_map hq _).1 _

theorem per_energy {B : List ℕ} {n p : Nd ℝ} (hn : IsStk B n) (hp : IsStk B p) (dx : ℝ) :
    Per B (fun y => y.shape = B) Nd.get (get_energy n p dx) fun b => Properties.get_energy (fr n b) (fr p b) dx := by
  unfold get_energy Properties.get_energy
  refine Per.bind (per_periodic_gradient hp dx (-1) (by norm_num)) fun gx hgx => ?_
  refine Per.bind (per_periodic_gradient hp dx (-2) (by norm_num)) fun gy hgy => ?_
  refine Per.bind (per_bzip (per_map hgx _).1 (per_map hgy _).1 _) fun q hq => ?_
  refine Per.bind (per_bzip (per_map hn _).1 hq _) fun r hr => ?_
  exact per_mean_ret hr _

theorem per_enstrophy {B : List ℕ} {n o : Nd ℝ} (hn : IsStk B n) (ho : IsStk B o) (dx : ℝ) :
    Per B (fun y => y.shape = B) Nd.get (get_enstrophy n o dx) fun b => Properties.get_enstrophy (fr n b) (fr o b) dx := by
  unfold get_enstrophy Properties.get_enstrophy
  refine Per.bind (per_bzip hn ho _) fun q hq => ?_
  exact per_mean_ret (per_map hq _).1 _

theorem zip_one_one (a : Arr ℝ) (c : ℝ) :
    Arr.zip (· - ·) a (tab 1 1 fun _ _ => c) = .ok (a.map (· - c)) := by
  rw [eq_tab a]
  unfold Arr.zip
  simp only [tab_h, tab_w, bdim_one_right, map_tab]
  congr 1
  refine tab_congr rfl rfl fun i j hi hj => ?_
  rw [bidx_lt hi, bidx_lt hj, tab_at' _ _ _ hi hj, tab_at' _ _ _ (by simp [bidx]) (by simp [bidx])]

theorem per_enstrophy_phi {B : List ℕ} {n p : Nd ℝ} (hn : IsStk B n) (hp : IsStk B p) (dx : ℝ) :
    Per B (fun y => y.shape = B) Nd.get (get_enstrophy_phi n p dx)
      fun b => Properties.get_enstrophy_phi (fr n b) (fr p b) dx := by
  have : ∀ b, Properties.get_enstrophy_phi (fr n b) (fr p b) dx = (do
      let omega ← NumpyGradients.periodic_laplace_N (fr p b) dx 1
      let m ← .ok (tab 1 1 fun _ _ => omega.mean)
      let omega ← Arr.zip (· - ·) omega m
      let d ← Arr.zip (· - ·) (fr n b) omega
      pure ((d.map (· ^ 2)).mean / 2)) := by
    intro b
    unfold Properties.get_enstrophy_phi
    simp only [Py.ok_bind, zip_one_one]
    rfl
  simp only [this]
  unfold get_enstrophy_phi
  refine Per.bind (per_laplace_N dx 1 hp) fun o ho => ?_
  refine Per.bind (per_meanLast2Keep ho) fun m hm => ?_
  refine Per.bind (per_bzip ho hm _) fun q hq => ?_
  refine Per.bind (per_bzip hn hq _) fun d hd => ?_
  exact per_mean_ret (per_map hd _).1 _

theorem per_D {B : List ℕ} {x : Nd ℝ} (hx : IsStk B x) (nu dx : ℝ) (N : ℕ) :
    Per B (IsStk B) fr (get_D x nu N dx) fun b => Properties.get_D (fr x b) nu N dx := by
  have : ∀ b, Properties.get_D (fr x b) nu N dx
      = (NumpyGradients.periodic_laplace_N (fr x b) dx N >>= fun y => pure (y.map (nu * ·))) := fun b => map_do _ _
  simp only [this]
  unfold get_D
  exact Per.bind (per_laplace_N dx N hx) fun y hy => per_ret hy _

theorem lift_arr (op : ℝ → ℝ → ℝ) (a b : Arr ℝ) {δ : Type} (k : Val → Py δ) :
    (Val.lift op (.arr a) (.arr b) >>= k) = Arr.zip op a b >>= fun c => k (.arr c) := by
  change ((Arr.zip op a b >>= fun c => pure (Val.arr c)) >>= k) = _
  rw [bind_assoc]; rfl

theorem per_DE {B : List ℕ} {n p dn dp : Nd ℝ} (hn : IsStk B n) (hp : IsStk B p) (hdn : IsStk B dn) (hdp : IsStk B dp) :
    Per B (fun y => y.shape = B) Nd.get (get_DE n p dn dp)
      fun b => Properties.get_DE (fr n b) (fr p b) (.arr (fr dn b)) (.arr (fr dp b)) := by
  have : ∀ b, Properties.get_DE (fr n b) (fr p b) (.arr (fr dn b)) (.arr (fr dp b)) = (do
      let a ← Arr.zip (· * ·) (fr n b) (fr dn b)
      let c ← Arr.zip (· * ·) (fr p b) (fr dp b)
      let d ← Arr.zip (· - ·) a c
      .ok d.mean) := by
    intro b
    change (Val.lift _ _ _ >>= fun a => Val.lift _ _ _ >>= fun c => Val.lift (· - ·) a c >>= Properties.meanVal) = _
    simp only [lift_arr]
    rfl
  simp only [this]
  unfold get_DE
  refine Per.bind (per_bzip hn hdn _) fun a ha => ?_
  refine Per.bind (per_bzip hp hdp _) fun c hc => ?_
  refine Per.bind (per_bzip ha hc _) fun d hd => ?_
  exact per_meanLast2 hd

theorem per_DU {B : List ℕ} {n o dn dp : Nd ℝ} (hn : IsStk B n) (ho : IsStk B o) (hdn : IsStk B dn) (hdp : IsStk B dp) :
    Per B (fun y => y.shape = B) Nd.get (get_DU n o dn dp)
      fun b => Properties.get_DU (fr n b) (fr o b) (.arr (fr dn b)) (.arr (fr dp b)) := by
  have : ∀ b, Properties.get_DU (fr n b) (fr o b) (.arr (fr dn b)) (.arr (fr dp b)) = (do
      let a ← Arr.zip (· - ·) (fr n b) (fr o b)
      let c ← Arr.zip (· - ·) (fr dn b) (fr dp b)
      let d ← Arr.zip (· * ·) a c
      pure (-d.mean)) := by
    intro b
    change (Val.lift _ _ _ >>= fun a => Val.lift _ _ _ >>= fun c => Val.lift (· * ·) a c >>= fun d =>
      Properties.meanVal d >>= fun m => pure (-m)) = _
    simp only [lift_arr]
    rfl
  simp only [this]
  unfold get_DU
  refine Per.bind (per_bzip hn ho _) fun a ha => ?_
  refine Per.bind (per_bzip hdn hdp _) fun c hc => ?_
  refine Per.bind (per_bzip ha hc _) fun d hd => ?_
  exact per_mean_ret hd _

theorem per_energy_N_ky {B : List ℕ} {n : Nd ℝ} (hn : IsStk B n) :
    Per B (IsRow B) rw' (get_energy_N_ky n) fun b => Properties.get_energy_N_ky (fr n b) := by
  unfold get_energy_N_ky Properties.get_energy_N_ky
  refine Per.bind (per_fft2 (per_map hn _).1) fun q hq => ?_
  exact per_meanLast (per_map hq _).1

theorem per_energy_N {B : List ℕ} {n : Nd ℝ} (hn : IsStk B n) :
    Per B (fun y => y.shape = B) Nd.get (get_energy_N_spectrally n)
      fun b => Properties.get_energy_N_spectrally (fr n b) := by
  unfold get_energy_N_spectrally Properties.get_energy_N_spectrally
  exact Per.bind (per_energy_N_ky hn) fun y hy => per_mean1 hy

theorem per_energy_V_ky {B : List ℕ} {p : Nd ℝ} (hp : IsStk B p) (dx : ℝ) :
    Per B (IsRow B) rw' (get_energy_V_ky p dx) fun b => Properties.get_energy_V_ky (fr p b) dx := by
  unfold get_energy_V_ky Properties.get_energy_V_ky
  rw [if_neg (by obtain ⟨h, w, e⟩ := hp; rw [replicate_zero_rank e]; omega)]
  refine Per.bind (per_fft2 (per_map hp _).1) fun q hq => ?_
  have e : ∀ b, (fr p b).h = ht p ∧ (fr p b).w = wd p := fun b => ⟨rfl, rfl⟩
  simp only [fun b => (e b).1, fun b => (e b).2]
  have hs : ∀ (u v : Arr ℝ), Per (δ := Arr ℝ) B (fun _ => True) (fun y _ => y) (.ok u + .ok v : Py (Arr ℝ))
      fun _ => (.ok u + .ok v : Py (Arr ℝ)) := by
    intro u v
    generalize (.ok u + .ok v : Py (Arr ℝ)) = m
    cases m with
    | error e => exact fun _ _ => rfl
    | ok y => exact ⟨trivial, fun _ _ => rfl⟩
  refine Per.bind (hs _ _) fun s _ => ?_
  have hz : ∀ b (a : Arr ℂ), (.ok a * .ok (fr q b) * .ok ((fr q b).map (starRingEnd ℂ)) : Py (Arr ℂ))
      = Arr.zip (· * ·) a (fr q b) >>= fun y => Arr.zip (· * ·) y ((fr q b).map (starRingEnd ℂ)) :=
    fun b a => py_zip_ok _ _ _
  simp only [hz, bind_assoc]
  refine Per.bind (per_bzip_left hq _ _) fun a ha => ?_
  refine Per.bind (per_bzip ha (per_map hq _).1 _) fun r hr => ?_
  exact per_meanLast (per_map hr _).1

theorem per_energy_V {B : List ℕ} {p : Nd ℝ} (hp : IsStk B p) (dx : ℝ) :
    Per B (fun y => y.shape = B) Nd.get (get_energy_V_spectrally p dx)
      fun b => Properties.get_energy_V_spectrally (fr p b) dx := by
  unfold get_energy_V_spectrally Properties.get_energy_V_spectrally
  exact Per.bind (per_energy_V_ky hp dx) fun y hy => per_mean1 hy

theorem per_gamma_n_ky {B : List ℕ} {n p : Nd ℝ} (hn : IsStk B n) (hp : IsStk B p) (dx : ℝ) :
    Per B (fun y => IsRow B y.2) (fun y b => (y.1, rw' y.2 b)) (get_gamma_n_ky n p dx)
      fun b => Properties.get_gamma_n_ky (fr n b) (fr p b) dx := by
  unfold get_gamma_n_ky Properties.get_gamma_n_ky
  rw [if_neg (by obtain ⟨h, w, e⟩ := hn; rw [replicate_zero_rank e]; omega)]
  refine Per.bind (per_fft2 (per_map hn _).1) fun q hq => ?_
  refine Per.bind (per_fft2 (per_map hp _).1) fun r hr => ?_
  have e : ∀ b, (fr n b).h = ht n ∧ (fr n b).w = wd n := fun b => ⟨rfl, rfl⟩
  simp only [fun b => (e b).1, fun b => (e b).2]
  have hz : ∀ b (a : Arr ℂ), (.ok ((fr q b).map (· * Complex.I)) * .ok a * .ok ((fr r b).map (starRingEnd ℂ)) : Py (Arr ℂ))
      = Arr.zip (· * ·) ((fr q b).map (· * Complex.I)) a >>= fun y => Arr.zip (· * ·) y ((fr r b).map (starRingEnd ℂ)) :=
    fun b a => py_zip_ok _ _ _
  simp only [hz, bind_assoc]
  refine Per.bind (per_bzip_right (per_map hq _).1 _ _) fun a ha => ?_
  refine Per.bind (per_bzip ha (per_map hr _).1 _) fun g hg => ?_
  have h1 := per_meanLast (x := g.real) (per_map hg _).1
  generalize g.real.meanLast = m at h1
  cases m with
  | error e => exact fun b hb => nomatch h1 b hb
  | ok y =>
    simp only [Py.ok_bind]
    have h2 := per_takeLast h1.1 (ht n / 2)
    change Per B _ _ (y.takeLast (ht n / 2) >>= _) _
    generalize y.takeLast (ht n / 2) = m at h2
    cases m with
    | error e => exact fun b hb => nomatch h2 b hb
    | ok z =>
      refine Per.ok h2.1 fun b hb => ?_
      have e1 := h1.2 b hb
      have e2 := h2.2 b hb
      injection e1 with e1
      injection e2 with e2
      simp only [Py.pure_eq]
      rw [← e2, ← e1]
      rfl

theorem per_gamma_n_spectral {B : List ℕ} {n p : Nd ℝ} (hn : IsStk B n) (hp : IsStk B p) (dx : ℝ) :
    Per B (fun y => y.shape = B) Nd.get (get_gamma_n_spectrally n p dx)
      fun b => Properties.get_gamma_n_spectrally (fr n b) (fr p b) dx := by
  unfold get_gamma_n_spectrally Properties.get_gamma_n_spectrally
  exact Per.bind (per_gamma_n_ky hn hp dx) fun y hy => per_mean1 hy

theorem per_zonal {B : List ℕ} {x : Nd ℝ} (hx : IsStk B x) :
    Per B (IsStk B) fr (zonal_transform x) fun b => Zonal.zonal_transform (fr x b) := by
  have : ∀ b, Zonal.zonal_transform (fr x b) = (.ok (fr x b).meanRows >>= fun m => Arr.zip (· - ·) (fr x b) m) :=
    fun b => rfl
  simp only [this]
  unfold zonal_transform
  exact Per.bind (per_meanRowsKeep hx) fun m hm => per_bzip hx hm _

/-- `get_delta_ky` of one frame, returning the first `m` angles -/
noncomputable def deltaAt (m : ℕ) (n p : Arr ℝ) : Py (List ℝ) := do
  let n_dft ← Arr.fft2Ortho n.toComplex
  let p_dft ← Arr.fft2Ortho p.toComplex
  let prod ← (.ok (n_dft.map (starRingEnd ℂ)) * .ok p_dft : Py (Arr ℂ))
  let delta_k := Properties.meanLast (prod.map Complex.arg)
  return delta_k.take m

theorem delta_eq (n p : Arr ℝ) : Properties.get_delta_ky n p = deltaAt (n.w / 2) n p := rfl

theorem per_delta_ky {B : List ℕ} {n p : Nd ℝ} (hn : IsStk B n) (hp : IsStk B p) :
    Per B (IsRow B) rw' (get_delta_ky n p) fun b => deltaAt (n.shape.getD 1 0 / 2) (fr n b) (fr p b) := by
  unfold get_delta_ky deltaAt
  refine Per.bind (per_fft2 (per_map hn _).1) fun q hq => ?_
  refine Per.bind (per_fft2 (per_map hp _).1) fun r hr => ?_
  refine Per.bind (per_bzip (per_map hq _).1 hr _) fun a ha => ?_
  have h1 := per_meanLast (x := a.map Complex.arg) (per_map ha _).1
  generalize (a.map Complex.arg).meanLast = m at h1
  cases m with
  | error e => exact fun b hb => nomatch h1 b hb
  | ok y =>
    simp only [Py.ok_bind]
    have h2 := per_takeLast h1.1 (n.shape.getD 1 0 / 2)
    generalize y.takeLast (n.shape.getD 1 0 / 2) = m at h2
    cases m with
    | error e => exact fun b hb => nomatch h2 b hb
    | ok z =>
      refine Per.ok h2.1 fun b hb => ?_
      have e1 := h1.2 b hb
      have e2 := h2.2 b hb
      injection e1 with e1
      injection e2 with e2
      simp only [Py.pure_eq]
      rw [← e2, ← e1]
      rfl

/-! ### A stack of frames -/

theorem stack_shape (h w : ℕ) (l : List (Arr α)) : (Nd.stack h w l).shape = [l.length] ++ [h, w] := rfl

theorem frame_stack {h w : ℕ} {l : List (Arr α)} (hl : ∀ a ∈ l, a.h = h ∧ a.w = w) {i : ℕ} (hi : i < l.length) :
    fr (Nd.stack h w l) [i] = l[i] := by
  rw [fr_of (stack_shape h w l)]
  obtain ⟨e1, e2⟩ := hl l[i] (List.getElem_mem hi)
  conv_rhs => rw [eq_tab l[i]]
  refine tab_congr e1.symm e2.symm fun a b _ _ => ?_
  unfold Nd.stack
  simp [List.getD, hi]

open RunProperties in
/-- values on the frames of a batch -/
theorem values_of_frames {F : Cell β → Cell β → Cell β → Py ℝ} {v : ℕ → ℝ} : ∀ {ns ps os : List (Cell β)}
    (hp : ps.length = ns.length) (ho : os.length = ns.length),
    (∀ i (hi : i < ns.length), F ns[i] ps[i] os[i] = .ok (v i)) →
    batchValues F ns ps os = .ok ((List.range ns.length).map v)
  | [], [], [], _, _, _ => rfl
  | n :: ns, p :: ps, o :: os, hp, ho, h => by
    have h0 := h 0 (by simp)
    have ih := values_of_frames (F := F) (v := fun i => v (i + 1)) (ns := ns) (ps := ps) (os := os)
      (by simpa using hp) (by simpa using ho) (fun i hi => h (i + 1) (Nat.succ_lt_succ hi))
    simp only [List.getElem_cons_zero] at h0
    unfold batchValues
    rw [h0, ih, List.length_cons, List.range_succ_eq_map]
    simp [Function.comp_def]
  | n :: ns, [], _, hp, _, _ => by simp at hp
  | n :: ns, p :: ps, [], _, ho, _ => by simp at ho
  | [], p :: ps, _, hp, _, _ => by simp at hp
  | [], [], o :: os, _, ho, _ => by simp at ho

open RunProperties in
/-- an exception on the first frame of a batch -/
theorem error_of_frame {F : Cell β → Cell β → Cell β → Py ℝ} {e : PyErr} : ∀ {ns ps os : List (Cell β)}
    (h0 : 0 < ns.length) (hp : ps.length = ns.length) (ho : os.length = ns.length), F ns[0] ps[0] os[0] = .error e →
    batchValues F ns ps os = .error e
  | [], _, _, h0, _, _, _ => by simp at h0
  | n :: ns, p :: ps, o :: os, _, _, _, h => by
    simp only [List.getElem_cons_zero] at h
    unfold batchValues
    rw [h]; rfl
  | n :: ns, [], _, _, hp, _, _ => by simp at hp
  | n :: ns, p :: ps, [], _, _, ho, _ => by simp at ho

end Verif.Stacked
