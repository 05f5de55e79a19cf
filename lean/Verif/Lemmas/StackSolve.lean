import Verif.Lemmas.Stack
import Verif.Lemmas.PhiField
import Verif.Model.Arakawa

/-!
# Lemmas: bracket and Poisson solver on stacks
-/

set_option linter.unusedSectionVars false

namespace Verif.Stacked

open Spec Arr

section bracket

variable {α : Type} [Inhabited α] [Add α] [Sub α] [Mul α] [Div α] [NatCast α] [Pow α ℕ]

/-! ### Shapes -/

/-- `m` returns an array of shape `s` -/
def Shaped (s : List ℕ) (m : Py (Nd α)) : Prop := ∃ y, m = .ok y ∧ y.shape = s

theorem bshape_self : ∀ s : List ℕ, Nd.bshape s s = some s
  | [] => rfl
  | a :: s => by simp only [Nd.bshape, bdim_self, bshape_self s]

theorem Shaped.op {s : List ℕ} {a b : Py (Nd α)} (f : α → α → α) (ha : Shaped s a) (hb : Shaped s b) :
    Shaped s (do Nd.bzip f (← a) (← b)) := by
  obtain ⟨x, rfl, hx⟩ := ha
  obtain ⟨y, rfl, hy⟩ := hb
  simp only [Py.ok_bind]
  unfold Nd.bzip Nd.zip
  have : x.rank = y.rank := by unfold Nd.rank; rw [hx, hy]
  rw [this, Nat.sub_self, lead_zero, lead_zero, hx, hy, bshape_self]
  exact ⟨_, rfl, rfl⟩

theorem shaped_slFirst {x : Nd α} {a c : ℕ} {s : List ℕ} (e : x.shape = a :: c :: s) (r q : Sl) :
    Shaped (r.len a :: q.len c :: s) (x.slFirst r q) := by
  unfold Nd.slFirst
  rw [e]
  exact ⟨_, rfl, rfl⟩

theorem pad_all (s : List ℕ) : List.zipWith (fun n (p : ℕ × ℕ) => p.1 + n + p.2) s (List.replicate s.length (1, 1))
    = s.map (· + 2) := by
  induction s with
  | nil => rfl
  | cons a s ih =>
    simp only [List.length_cons, List.replicate_succ, List.zipWith_cons_cons, List.map_cons, ih]
    congr 1
    omega

theorem any_all (s : List ℕ) (h : ∀ n ∈ s, 0 < n) :
    ((s.zip (List.replicate s.length ((1, 1) : ℕ × ℕ))).any fun q => q.1 == 0 && (0 < q.2.1 || 0 < q.2.2)) = false := by
  induction s with
  | nil => rfl
  | cons a s ih =>
    have h0 := h a (by simp)
    simp only [List.length_cons, List.replicate_succ, List.zip_cons_cons, List.any_cons,
      ih fun n hn => h n (by simp [hn]), Bool.or_false]
    have : a ≠ 0 := by omega
    simp [this]

theorem shaped_padAll {x : Nd α} (h : ∀ n ∈ x.shape, 0 < n) :
    Shaped (x.shape.map (· + 2)) (x.padWrap (List.replicate x.rank (1, 1))) := by
  unfold Nd.padWrap Nd.rank
  rw [if_neg (by simp), if_neg (by rw [any_all _ h]; simp), pad_all]
  exact ⟨_, rfl, rfl⟩

theorem shaped_arakawa {z p : Nd α} {a c : ℕ} {s : List ℕ} (hz : z.shape = (a + 2) :: (c + 2) :: s)
    (hp : p.shape = (a + 2) :: (c + 2) :: s) (dx : α) : Shaped (a :: c :: s) (arakawa_vec z p dx) := by
  have hl : ∀ {x : Nd α}, x.shape = (a + 2) :: (c + 2) :: s → ∀ r q, r ∈ [s0m2, s1m1, s2] → q ∈ [s0m2, s1m1, s2] →
      Shaped (a :: c :: s) (x.slFirst r q) := by
    intro x hx r q hr hq
    have := shaped_slFirst hx r q
    have e : ∀ t ∈ [s0m2, s1m1, s2], ∀ n, t.len (n + 2) = n := by
      intro t ht n
      simp only [List.mem_cons, List.not_mem_nil, or_false] at ht
      rcases ht with rfl | rfl | rfl <;> simp only [len_s0m2, len_s1m1, len_s2] <;> omega
    rw [e r hr, e q hq] at this
    exact this
  have fin : ∀ {m : Py (Nd α)} (f : α → α), Shaped (a :: c :: s) m →
      Shaped (a :: c :: s) (m >>= fun y => pure (y.map f)) := by
    rintro m f ⟨y, rfl, hy⟩
    exact ⟨_, rfl, hy⟩
  unfold arakawa_vec
  refine fin _ ?_
  refine .op _ (.op _ (.op _ (.op _ (.op _ (.op _ (.op _ ?_ ?_) ?_) ?_) ?_) ?_) ?_) ?_
  iterate 4
    refine .op _ (hl hz _ _ ?_ ?_) (.op _ (.op _ (.op _ (hl hp _ _ ?_ ?_) (hl hp _ _ ?_ ?_)) (hl hp _ _ ?_ ?_))
      (hl hp _ _ ?_ ?_)) <;> simp
  iterate 4
    refine .op _ (hl hz _ _ ?_ ?_) (.op _ (hl hp _ _ ?_ ?_) (hl hp _ _ ?_ ?_)) <;> simp

theorem shaped_periodic_arakawa {z p : Nd α} {a c : ℕ} {s : List ℕ} (hz : z.shape = a :: c :: s)
    (hp : p.shape = a :: c :: s) (h : ∀ n ∈ a :: c :: s, 0 < n) (dx : α) :
    Shaped (a :: c :: s.map (· + 2)) (periodic_arakawa_vec z p dx) := by
  unfold periodic_arakawa_vec
  obtain ⟨y, e1, e2⟩ := shaped_padAll (x := z) (by rw [hz]; exact h)
  obtain ⟨y', e1', e2'⟩ := shaped_padAll (x := p) (by rw [hp]; exact h)
  rw [e1, e1']
  simp only [Py.ok_bind]
  rw [hz] at e2; rw [hp] at e2'
  exact shaped_arakawa e2 e2' dx

/-! ### A single frame -/

theorem per_slFirst {x : Nd α} (hx : IsStk [] x) (r c : Sl) :
    Per [] (IsStk []) fr (x.slFirst r c) fun b => .ok ((fr x b).sl r c) := by
  obtain ⟨h, w, e⟩ := hx
  have e' : x.shape = [h, w] := e
  unfold Nd.slFirst
  rw [e']
  refine Per.ok ⟨_, _, rfl⟩ fun b hb => ?_
  obtain rfl : b = [] := by simpa using hb.length
  rw [fr_of e, fr_of (B := []) rfl, sl_tab']
  congr 1

theorem per_op {m m' : Py (Nd α)} {F F' : List ℕ → Py (Arr α)} (f : α → α → α) (h : Per [] (IsStk []) fr m F)
    (h' : Per [] (IsStk []) fr m' F') :
    Per [] (IsStk []) fr (do Nd.bzip f (← m) (← m')) fun b => Py.zip f (F b) (F' b) := by
  have e : (fun b => Py.zip f (F b) (F' b)) = fun b => F b >>= fun x => F' b >>= fun y => Arr.zip f x y := by
    funext b
    cases F b <;> cases F' b <;> rfl
  rw [e]
  exact Per.bind h fun x hx => Per.bind h' fun y hy => per_bzip hx hy f

theorem per_arakawa {z p : Nd α} (hz : IsStk [] z) (hp : IsStk [] p) (dx : α) :
    Per [] (IsStk []) fr (arakawa_vec z p dx) fun b => NumpyArakawa.arakawa_vec (fr z b) (fr p b) dx := by
  have fin : ∀ {m : Py (Nd α)} {F : List ℕ → Py (Arr α)} (f : α → α), Per [] (IsStk []) fr m F →
      Per [] (IsStk []) fr (m >>= fun y => pure (y.map f)) fun b => (F b).map (Arr.map f) := by
    intro m F f h
    simp only [map_do]
    exact Per.bind h fun y hy => per_ret hy f
  unfold arakawa_vec NumpyArakawa.arakawa_vec
  refine fin _ ?_
  have Z := fun r c => per_slFirst hz r c
  have P := fun r c => per_slFirst hp r c
  exact per_op _ (per_op _ (per_op _ (per_op _ (per_op _ (per_op _ (per_op _
    (per_op _ (Z _ _) (per_op _ (per_op _ (per_op _ (P _ _) (P _ _)) (P _ _)) (P _ _)))
    (per_op _ (Z _ _) (per_op _ (per_op _ (per_op _ (P _ _) (P _ _)) (P _ _)) (P _ _))))
    (per_op _ (Z _ _) (per_op _ (per_op _ (per_op _ (P _ _) (P _ _)) (P _ _)) (P _ _))))
    (per_op _ (Z _ _) (per_op _ (per_op _ (per_op _ (P _ _) (P _ _)) (P _ _)) (P _ _))))
    (per_op _ (Z _ _) (per_op _ (P _ _) (P _ _))))
    (per_op _ (Z _ _) (per_op _ (P _ _) (P _ _))))
    (per_op _ (Z _ _) (per_op _ (P _ _) (P _ _))))
    (per_op _ (Z _ _) (per_op _ (P _ _) (P _ _)))

theorem per_periodic_arakawa {z p : Nd α} (hz : IsStk [] z) (hp : IsStk [] p) (dx : α) :
    Per [] (IsStk []) fr (periodic_arakawa_vec z p dx)
      fun b => NumpyArakawa.periodic_arakawa_vec (fr z b) (fr p b) dx := by
  have e : ∀ {x : Nd α}, IsStk [] x → x.rank = 2 := by
    rintro x ⟨h, w, e⟩
    unfold Nd.rank; rw [e]; rfl
  unfold periodic_arakawa_vec NumpyArakawa.periodic_arakawa_vec
  rw [e hz, e hp]
  exact Per.bind (per_padWrap hz) fun z' hz' => Per.bind (per_padWrap hp) fun p' hp' => per_arakawa hz' hp' dx

end bracket

/-! ### Poisson solver -/

open Classical in
/-- the solver with a given table of divisors -/
noncomputable def solveWith (L : Arr FloatX) (t : Arr ℝ) (dx : ℝ) (times : ℕ) : Py (Arr ℝ) := do
  let frequencies ← Arr.fft2 t.toComplex
  let result ← Arr.zip (fun z d => FloatX.cdiv z (FloatX.pow d times)) frequencies L
  let result ← Arr.zip (fun d z => if FloatX.isZero d then 0 else z) L result
  let result ← Arr.ifft2 result
  return result.real.map (· * dx ^ 2)

/-- divisor at an index of a stack of shape `s` -/
noncomputable def divisor (s idx : List ℕ) : FloatX :=
  if idx.getD 0 0 = 0 ∧ idx.getD 1 0 = 0 then .inf else .fin (-((2 * Real.pi) ^ 2) * ksq s idx)

theorem per_poisson {B : List ℕ} {x : Nd ℝ} {h w : ℕ} (e : x.shape = B ++ [h, w]) (hB : 0 ∉ B) (dx : ℝ) (m : ℕ) :
    Per B (IsStk B) fr (fourier_poisson_double x dx m) fun b =>
      solveWith (tab h w fun i j => divisor (B ++ [h, w]) (b ++ [i, j])) (fr x b) dx m := by
  unfold fourier_poisson_double solveWith
  have hx : IsStk B x := ⟨h, w, e⟩
  by_cases h0 : h = 0 ∨ w = 0
  · have h1 : x.toComplex.fft2 = .error .valueError := by
      unfold Nd.fft2
      have g0 : x.toComplex.shape.getD (x.toComplex.shape.length - 2) 0 = h := ht_of e
      have g1 : x.toComplex.shape.getD (x.toComplex.shape.length - 2 + 1) 0 = w := wd_of e
      simp only [g0, g1]
      rw [if_neg (by change ¬ x.shape.length < 2; rw [e]; simp), if_pos h0]
    rw [h1]
    refine Per.err fun b hb => ?_
    have h2 : Arr.fft2 (fr x b).toComplex = .error .valueError := by
      unfold Arr.fft2
      rw [if_pos]
      rw [fr_of e]; exact h0
    rw [h2]; rfl
  · refine Per.bind (per_fft (B := B) (x := x.toComplex) hx) fun y hy => ?_
    rw [if_neg (by rw [e]; simp; tauto)]
    have hL : IsStk B (⟨x.shape, fun idx => if idx.getD 0 0 = 0 ∧ idx.getD 1 0 = 0 then FloatX.inf
      else .fin (-((2 * Real.pi) ^ 2) * ksq x.shape idx)⟩ : Nd FloatX) := hx
    have hLf : ∀ b, fr (⟨x.shape, fun idx => if idx.getD 0 0 = 0 ∧ idx.getD 1 0 = 0 then FloatX.inf
      else .fin (-((2 * Real.pi) ^ 2) * ksq x.shape idx)⟩ : Nd FloatX) b
        = tab h w fun i j => divisor (B ++ [h, w]) (b ++ [i, j]) := by
      intro b
      rw [fr_of (B := B) (h := h) (w := w) (by exact e), e]; rfl
    simp only [← hLf]
    refine Per.bind (per_bzip hy hL _) fun r1 h1 => ?_
    refine Per.bind (per_bzip hL h1 _) fun r2 h2 => ?_
    refine Per.bind (per_ifft h2) fun r3 h3 => ?_
    exact Per.ok h3 fun _ _ => rfl

/-- divisor of mode `(k, l)` of the frame `b` -/
noncomputable def lamB {h w : ℕ} (B b : List ℕ) (k : ZMod h) (l : ZMod w) : ℝ :=
  -((2 * Real.pi) ^ 2) * (ksq B b + kap k ^ 2 + kap l ^ 2)

open Classical in
/-- multiplier of frame `b` -/
noncomputable def sigB {h w : ℕ} (B b : List ℕ) (k : ZMod h) (l : ZMod w) : ℝ :=
  if (b ++ [k.val, l.val]).getD 0 0 = 0 ∧ (b ++ [k.val, l.val]).getD 1 0 = 0 then 0 else 1 / lamB B b k l

theorem ksq_nonneg (B b : List ℕ) : 0 ≤ ksq B b := by
  unfold ksq
  refine List.sum_nonneg fun x hx => ?_
  rw [List.mem_iff_getElem] at hx
  obtain ⟨i, hi, rfl⟩ := hx
  rw [List.getElem_zipWith]
  positivity

theorem ksq_append {B b : List ℕ} (hb : Nd.InRange B b) (h w i j : ℕ) :
    ksq (B ++ [h, w]) (b ++ [i, j]) = ksq B b + fftfreq h i ^ 2 + fftfreq w j ^ 2 := by
  unfold ksq
  rw [List.zipWith_append hb.length.symm, List.sum_append]
  simp only [List.zipWith_cons_cons, List.zipWith_nil_left, List.sum_cons, List.sum_nil]
  ring

theorem fftfreq_eq_zero {n i : ℕ} (hi : i < n) : fftfreq n i = 0 ↔ i = 0 := by
  have : NeZero n := ⟨by omega⟩
  rw [← kap_cast hi, kap_eq_zero, cast_eq_zero_iff hi]

theorem ksq_eq_zero {B b : List ℕ} (hb : Nd.InRange B b) : ksq B b = 0 ↔ ∀ i ∈ b, i = 0 := by
  induction hb with
  | nil => simp [ksq]
  | @cons i n b B hi hb ih =>
    have e : ksq (n :: B) (i :: b) = fftfreq n i ^ 2 + ksq B b := by unfold ksq; simp
    rw [e]
    have h1 := ksq_nonneg B b
    have h2 := sq_nonneg (fftfreq n i)
    constructor
    · intro h0
      have h3 : ksq B b = 0 := by linarith
      have h4 : fftfreq n i ^ 2 = 0 := by linarith
      have h5 : i = 0 := (fftfreq_eq_zero hi).mp (by simpa using h4)
      intro a ha
      rcases List.mem_cons.mp ha with rfl | ha
      · exact h5
      · exact ih.mp h3 a ha
    · intro h0
      rw [ih.mpr fun a ha => h0 a (by simp [ha]), (fftfreq_eq_zero hi).mpr (h0 i (by simp))]
      norm_num

variable {h w : ℕ} [NeZero h] [NeZero w]

theorem getD_zero_neg {b : List ℕ} (hb : b ≠ []) (k : ZMod h) (l : ZMod w) :
    ((b ++ [(-k).val, (-l).val]).getD 0 0 = 0 ∧ (b ++ [(-k).val, (-l).val]).getD 1 0 = 0)
      ↔ ((b ++ [k.val, l.val]).getD 0 0 = 0 ∧ (b ++ [k.val, l.val]).getD 1 0 = 0) := by
  match b, hb with
  | [a], _ =>
    simp only [List.cons_append, List.nil_append, List.getD_cons_zero, List.getD_cons_succ, ZMod.val_eq_zero, neg_eq_zero]
  | a :: c :: s, _ => rfl

theorem sigB_neg (B : List ℕ) {b : List ℕ} (hb : b ≠ []) (k : ZMod h) (l : ZMod w) : sigB B b (-k) (-l) = sigB B b k l := by
  unfold sigB
  simp only [getD_zero_neg hb]
  unfold lamB
  rw [kap_neg_sq, kap_neg_sq]

theorem solveWith_ofField {B b : List ℕ} (hb : Nd.InRange B b) (f : Fld h w) (dx : ℝ) :
    solveWith (tab h w fun i j => divisor (B ++ [h, w]) (b ++ [i, j])) (ofField f) dx 1
      = .ok (ofField fun i j => mult (sigB B b) f i j * dx ^ 2) := by
  classical
  unfold solveWith
  simp only [toComplex_ofField, fft2_ofField, Py.ok_bind]
  rw [show ofField (D (cx f)) = tab h w fun i j => D (cx f) i j from rfl, zip_tab]
  simp only [Py.ok_bind]
  rw [zip_tab]
  simp only [Py.ok_bind]
  have e : (tab h w fun i j => if FloatX.isZero (divisor (B ++ [h, w]) (b ++ [i, j])) then 0
        else FloatX.cdiv (D (cx f) i j) (FloatX.pow (divisor (B ++ [h, w]) (b ++ [i, j])) 1))
      = ofField fun k l => ((sigB B b k l : ℝ) : ℂ) * D (cx f) k l := by
    refine tab_congr rfl rfl fun i j hi hj => ?_
    have vi : (i : ZMod h).val = i := ZMod.val_cast_of_lt hi
    have vj : (j : ZMod w).val = j := ZMod.val_cast_of_lt hj
    unfold divisor sigB
    beta_reduce
    rw [vi, vj]
    by_cases h0 : (b ++ [i, j]).getD 0 0 = 0 ∧ (b ++ [i, j]).getD 1 0 = 0
    · rw [if_pos h0, if_pos h0]
      simp [FloatX.isZero, FloatX.pow, FloatX.cdiv]
    · rw [if_neg h0, if_neg h0]
      have hl : -((2 * Real.pi) ^ 2) * ksq (B ++ [h, w]) (b ++ [i, j]) = lamB B b (i : ZMod h) (j : ZMod w) := by
        rw [ksq_append hb]
        unfold lamB; rw [kap_cast hi, kap_cast hj]
      rw [hl]
      have hne : lamB B b (i : ZMod h) (j : ZMod w) ≠ 0 := by
        unfold lamB
        refine mul_ne_zero (neg_ne_zero.mpr (pow_ne_zero 2 (mul_ne_zero two_ne_zero Real.pi_ne_zero))) fun hz => h0 ?_
        have h1 := ksq_nonneg B b
        have h2 := sq_nonneg (kap (i : ZMod h))
        have h3 := sq_nonneg (kap (j : ZMod w))
        have z1 : ksq B b = 0 := by linarith
        have z2 : kap (i : ZMod h) ^ 2 = 0 := by linarith
        have z3 : kap (j : ZMod w) ^ 2 = 0 := by linarith
        have y2 : i = 0 := by
          rw [← cast_eq_zero_iff hi, ← kap_eq_zero]; simpa using z2
        have y3 : j = 0 := by
          rw [← cast_eq_zero_iff hj, ← kap_eq_zero]; simpa using z3
        have y1 := (ksq_eq_zero hb).mp z1
        subst y2 y3
        match b, y1 with
        | [], _ => exact ⟨rfl, rfl⟩
        | [a], y1 => exact ⟨y1 a (by simp), rfl⟩
        | a :: c :: s, y1 => exact ⟨y1 a (by simp), y1 c (by simp)⟩
      simp only [FloatX.isZero, hne, if_false, FloatX.pow, FloatX.cdiv]
      push_cast; ring
  rw [e, ifft2_ofField]
  rfl

end Verif.Stacked
