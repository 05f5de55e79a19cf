import Verif.Model.Memory
import Verif.Lemmas.Namespace

/-!
# The steps on objects are the steps of `Model/HW.lean`, and write only to arrays they created
-/

namespace Verif.Memory

open NS

variable {α β γ δ : Type}

/-- the arrays of `h` are still there in `h'`, and those outside `W` are unchanged -/
def Kp (W : ℕ → Prop) (h h' : List (Arr ℝ)) : Prop :=
  h.length ≤ h'.length ∧ ∀ r, r < h.length → ¬ W r → h'[r]? = h[r]?

/-- no array -/
def none' : ℕ → Prop := fun _ => False

theorem Kp.refl (W : ℕ → Prop) (h : List (Arr ℝ)) : Kp W h h := ⟨le_rfl, fun _ _ _ => rfl⟩

theorem Kp.trans {W W1 W2 : ℕ → Prop} {h h' h'' : List (Arr ℝ)} (a : Kp W1 h h') (b : Kp W2 h' h'')
    (t : ∀ r, r < h.length → ¬ W r → ¬ W1 r ∧ ¬ W2 r) : Kp W h h'' :=
  ⟨a.1.trans b.1, fun r hr w => by
    obtain ⟨w1, w2⟩ := t r hr w
    rw [b.2 r (by have := a.1; omega) w2, a.2 r hr w1]⟩

/-- started in `m`, `x` does what `y` does: the results are related, and only arrays in `W` are changed -/
def At (W : ℕ → Prop) (R : List (Arr ℝ) → α → β → Prop) (m : Mem) (x : H α) (y : M β) : Prop :=
  match x m with
  | .ok (a, m') => ∃ b, y m.calls = .ok (b, m'.calls) ∧ Kp W m.heap m'.heap ∧ R m'.heap a b
  | .error e => y m.calls = .error e

theorem At.bind {W W1 W2 : ℕ → Prop} {R : List (Arr ℝ) → α → β → Prop} {S : List (Arr ℝ) → γ → δ → Prop} {m : Mem}
    {x : H α} {y : M β} {f : α → H γ} {g : β → M δ} (h : At W1 R m x y)
    (k : ∀ a b m', Kp W1 m.heap m'.heap → R m'.heap a b → At W2 S m' (f a) (g b))
    (t : ∀ r, r < m.heap.length → ¬ W r → ¬ W1 r ∧ ¬ W2 r) : At W S m (x >>= f) (y >>= g) := by
  unfold At at h ⊢
  change match (x m >>= fun r => f r.1 r.2) with
    | .ok (a, m') => ∃ b, (y m.calls >>= fun r => g r.1 r.2) = .ok (b, m'.calls) ∧ Kp W m.heap m'.heap ∧ S m'.heap a b
    | .error e => (y m.calls >>= fun r => g r.1 r.2) = .error e
  cases hx : x m with
  | error e =>
    rw [hx] at h
    dsimp only at h
    rw [h]
    rfl
  | ok r =>
    obtain ⟨a, q⟩ := r
    rw [hx] at h
    obtain ⟨b, h1, h2, h3⟩ := h
    rw [h1]
    have := k a b q h2 h3
    unfold At at this
    change match f a q with
      | .ok (a, m') => ∃ b', g b q.calls = .ok (b', m'.calls) ∧ Kp W m.heap m'.heap ∧ S m'.heap a b'
      | .error e => g b q.calls = .error e
    cases hf : f a q with
    | error e => rw [hf] at this; exact this
    | ok r =>
      rw [hf] at this
      obtain ⟨b', e, k2, s⟩ := this
      exact ⟨b', e, h2.trans k2 t, s⟩

/-- what is known about the memory, and stays true when arrays are added -/
structure Ctx where
  holds : List (Arr ℝ) → Prop
  stable : ∀ {h h'}, Kp none' h h' → holds h → holds h'

/-- both -/
def Ctx.and (C D : Ctx) : Ctx where
  holds h := C.holds h ∧ D.holds h
  stable k c := ⟨C.stable k c.1, D.stable k c.2⟩

/-- a fact that has nothing to do with the memory -/
def pureC (p : Prop) : Ctx where
  holds _ := p
  stable _ c := c

/-- the memory holds at least `n` arrays -/
def sizeC (n : ℕ) : Ctx where
  holds h := n ≤ h.length
  stable k c := c.trans k.1

theorem lt_of_getElem? {h : List (Arr ℝ)} {r : ℕ} {a : Arr ℝ} (e : h[r]? = some a) : r < h.length := by
  by_contra hn
  rw [List.getElem?_eq_none (by omega)] at e
  cases e

/-- the reference `r` was created later than the first `n` arrays, and its array is `a` -/
def arrC (n r : ℕ) (a : Arr ℝ) : Ctx where
  holds h := n ≤ r ∧ h[r]? = some a
  stable k c := ⟨c.1, by rw [k.2 _ (lt_of_getElem? c.2) (fun f => f), c.2]⟩

/-- the object `u` has the value `v`, and is later than the first `n` arrays -/
def valC (n : ℕ) : Obj → Val → Ctx
  | .ref r, .arr a => arrC n r a
  | .num x, .num y => pureC (x = y)
  | _, _ => pureC False

/-- the dictionary of objects has the given values -/
def nsC (n : ℕ) : NS Obj → NS Val → Ctx
  | [], [] => pureC True
  | p :: s, q :: t => ((pureC (p.1 = q.1)).and (valC n p.2 q.2)).and (nsC n s t)
  | _, _ => pureC False

/-- an optional object -/
def optC (n : ℕ) : Option Obj → Option Val → Ctx
  | none, none => pureC True
  | some u, some v => valC n u v
  | _, _ => pureC False

/-- whenever `C` holds, `x` does what `y` does, without changing any array, and the results are related by `R` -/
def Tri (C : Ctx) (x : H α) (y : M β) (R : α → β → Ctx) : Prop :=
  ∀ m, C.holds m.heap → At none' (fun h a b => (R a b).holds h) m x y

theorem Tri.bind {C : Ctx} {x : H α} {y : M β} {R : α → β → Ctx} {f : α → H γ} {g : β → M δ} {S : γ → δ → Ctx}
    (h : Tri C x y R) (k : ∀ a b, Tri (C.and (R a b)) (f a) (g b) S) : Tri C (x >>= f) (y >>= g) S :=
  fun m c => (h m c).bind (fun a b m' kp r => k a b m' ⟨C.stable kp c, r⟩) fun _ _ w => ⟨w, w⟩

theorem Tri.bindPure {C : Ctx} {x : H α} {b : β} {R : α → β → Ctx} {f : α → H γ} {y : M δ} {S : γ → δ → Ctx}
    (h : Tri C x (pure b) R) (k : ∀ a, Tri (C.and (R a b)) (f a) y S) : Tri C (x >>= f) y S := by
  intro m c
  have h' := h m c
  have : At none' (fun h a b' => b' = b ∧ (R a b').holds h) m x (pure b) := by
    unfold At at h' ⊢
    cases hx : x m with
    | error e => rw [hx] at h'; exact h'
    | ok r =>
      rw [hx] at h'
      obtain ⟨b', e, kp, r⟩ := h'
      refine ⟨b', e, kp, ?_, r⟩
      injection e with e
      injection e with e _
      exact e.symm
  refine (this.bind (g := fun _ => y) (W := none') (W2 := none') (S := fun h a b => (S a b).holds h)
    (fun a b' m' kp r => ?_) fun _ _ w => ⟨w, w⟩ :)
  obtain ⟨rfl, r⟩ := r
  exact k a m' ⟨C.stable kp c, r⟩

theorem Tri.weaken {C : Ctx} {x : H α} {y : M β} {R S : α → β → Ctx} (h : Tri C x y R)
    (t : ∀ a b m, (R a b).holds m → (S a b).holds m) : Tri C x y S := by
  intro m c
  have h' := h m c
  unfold At at h' ⊢
  cases hx : x m with
  | error e => rw [hx] at h'; exact h'
  | ok r =>
    rw [hx] at h'
    obtain ⟨b, e, kp, r⟩ := h'
    exact ⟨b, e, kp, t _ _ _ r⟩

theorem Tri.pre {C D : Ctx} {x : H α} {y : M β} {R : α → β → Ctx} (h : Tri D x y R)
    (t : ∀ m, C.holds m → D.holds m) : Tri C x y R := fun m c => h m (t _ c)

theorem tri_pure {C : Ctx} {a : α} {b : β} {R : α → β → Ctx} (h : ∀ m, C.holds m → (R a b).holds m) :
    Tri C (pure a) (pure b) R := fun _ c => ⟨b, rfl, .refl _ _, h _ c⟩

theorem tri_error {C : Ctx} {e : PyErr} {R : α → β → Ctx} : Tri C (H.lift (.error e)) (M.lift (.error e)) R :=
  fun _ _ => rfl

theorem tri_log {C : Ctx} {f : Calls → Calls} {R : Unit → Unit → Ctx} (h : ∀ m, C.holds m → (R () ()).holds m) :
    Tri C (logH f) (logCall f) R := fun _ c => ⟨(), rfl, .refl _ _, h _ c⟩

/-- the results are equal -/
def eqC (a b : α) : Ctx := pureC (a = b)

theorem tri_lift {C : Ctx} (x : Py α) : Tri C (H.lift x) (M.lift x) eqC := by
  intro m c
  unfold At
  cases x with
  | error e => rfl
  | ok a => exact ⟨a, rfl, .refl _ _, rfl⟩

theorem at_get {m : Mem} {r : ℕ} {a : Arr ℝ} (e : m.heap[r]? = some a) :
    At none' (fun _ b c => b = c) m (get r) (pure a) := by
  unfold At get
  rw [e]
  exact ⟨a, rfl, .refl _ _, rfl⟩

theorem tri_get {C : Ctx} {n r : ℕ} {a : Arr ℝ} (h : ∀ m, C.holds m → (arrC n r a).holds m) :
    Tri C (get r) (pure a) eqC := fun _ c => at_get (h _ c).2

theorem getElem?_append_length (h : List (Arr ℝ)) (a : Arr ℝ) : (h ++ [a])[h.length]? = some a := by simp

theorem kp_append (h : List (Arr ℝ)) (a : Arr ℝ) : Kp none' h (h ++ [a]) :=
  ⟨by simp, fun r hr _ => List.getElem?_append_left hr⟩

theorem tri_alloc {C : Ctx} {n : ℕ} (a : Arr ℝ) (h : ∀ m, C.holds m → n ≤ m.length) :
    Tri C (alloc a) (pure a) (arrC n) :=
  fun _ c => ⟨a, rfl, kp_append _ _, h _ c, getElem?_append_length _ _⟩

theorem pure_lift (x : Py α) : (M.lift x) = (M.lift x >>= pure) := (bind_pure _).symm

theorem liftM_bind (x : Py α) (f : α → Py β) : M.lift (x >>= f) = M.lift x >>= fun a => M.lift (f a) := by
  funext c
  cases x <;> rfl

theorem liftM_ok (a : α) : M.lift (.ok a) = pure a := rfl

theorem tri_un {C : Ctx} {n n' r : ℕ} {a : Arr ℝ} {f : Arr ℝ → Py (Arr ℝ)} (h : ∀ m, C.holds m → (arrC n' r a).holds m)
    (hn : ∀ m, C.holds m → n ≤ m.length) : Tri C (un f r) (M.lift (f a)) (arrC n) := by
  refine (tri_get h).bindPure fun b => ?_
  rw [pure_lift]
  intro m c
  obtain rfl : b = a := c.2
  refine ((tri_lift (f b)).bind (fun x y => ?_) : Tri C _ _ _) m c.1
  intro m c
  obtain rfl : x = y := c.2
  exact tri_alloc x hn m c.1

theorem tri_bin {C : Ctx} {n n' n'' r s : ℕ} {a b : Arr ℝ} {f : Arr ℝ → Arr ℝ → Py (Arr ℝ)}
    (h : ∀ m, C.holds m → (arrC n' r a).holds m) (h' : ∀ m, C.holds m → (arrC n'' s b).holds m)
    (hn : ∀ m, C.holds m → n ≤ m.length) : Tri C (bin f r s) (M.lift (f a b)) (arrC n) := by
  refine (tri_get h).bindPure fun a' => ?_
  refine (tri_get (C := C.and _) fun m c => h' m c.1).bindPure fun b' => ?_
  rw [pure_lift]
  intro m c
  obtain rfl : a' = a := c.1.2
  obtain rfl : b' = b := c.2
  refine ((tri_lift (f a' b')).bind (fun x y => ?_) : Tri C _ _ _) m c.1.1
  intro m c
  obtain rfl : x = y := c.2
  exact tri_alloc x hn m c.1

theorem tri_fetch {C : Ctx} {n : ℕ} {u : Obj} {v : Val} (h : ∀ m, C.holds m → (valC n u v).holds m) :
    Tri C (fetch u) (pure v) eqC := by
  intro m c
  have hv := h _ c
  cases u with
  | ref r =>
    cases v with
    | arr a =>
      unfold fetch
      refine ((tri_get (C := C) (n := n) (r := r) (a := a) h).bindPure (fun b => ?_) : Tri C _ _ _) m c
      exact tri_pure fun m c => congrArg Val.arr c.2
    | num x => exact hv.elim
  | num x =>
    cases v with
    | arr a => exact hv.elim
    | num y => exact ⟨.num y, rfl, .refl _ _, congrArg Val.num hv⟩

theorem tri_store {C : Ctx} {n : ℕ} (v : Val) (h : ∀ m, C.holds m → n ≤ m.length) :
    Tri C (store v) (pure v) (valC n) := by
  cases v with
  | arr a =>
    refine (tri_alloc a h).bindPure fun r => ?_
    exact tri_pure fun m c => c.2
  | num x => exact tri_pure fun _ _ => rfl

theorem tri_op {C : Ctx} {n n' n'' : ℕ} {u v : Obj} {a b : Val} {f : Val → Val → Py Val}
    (h : ∀ m, C.holds m → (valC n' u a).holds m) (h' : ∀ m, C.holds m → (valC n'' v b).holds m)
    (hn : ∀ m, C.holds m → n ≤ m.length) : Tri C (op f u v) (M.lift (f a b)) (valC n) := by
  refine (tri_fetch h).bindPure fun a' => ?_
  refine (tri_fetch (C := C.and _) fun m c => h' m c.1).bindPure fun b' => ?_
  rw [pure_lift]
  intro m c
  obtain rfl : a' = a := c.1.2
  obtain rfl : b' = b := c.2
  refine ((tri_lift (f a' b')).bind (fun x y => ?_) : Tri C _ _ _) m c.1.1
  intro m c
  obtain rfl : x = y := c.2
  exact tri_store x hn m c.1

/-! ### dictionaries -/

theorem valC_mono {n n' : ℕ} (hn : n' ≤ n) {u : Obj} {v : Val} {m : List (Arr ℝ)} (h : (valC n u v).holds m) :
    (valC n' u v).holds m := by
  cases u <;> cases v
  · exact ⟨hn.trans h.1, h.2⟩
  · exact h.elim
  · exact h.elim
  · exact h

theorem nsC_mono {n n' : ℕ} (hn : n' ≤ n) {s : NS Obj} {t : NS Val} {m : List (Arr ℝ)} (h : (nsC n s t).holds m) :
    (nsC n' s t).holds m := by
  induction s generalizing t with
  | nil => cases t <;> exact h
  | cons p s ih =>
    cases t with
    | nil => exact h.elim
    | cons q t => exact ⟨⟨h.1.1, valC_mono hn h.1.2⟩, ih h.2⟩

theorem nsC_get? {n : ℕ} {s : NS Obj} {t : NS Val} {m : List (Arr ℝ)} (h : (nsC n s t).holds m) (k : String) :
    (optC n (s.get? k) (t.get? k)).holds m := by
  induction s generalizing t with
  | nil =>
    cases t with
    | nil => exact trivial
    | cons q t => exact h.elim
  | cons p s ih =>
    cases t with
    | nil => exact h.elim
    | cons q t =>
      rw [get?_cons, get?_cons, show p.1 = q.1 from h.1.1]
      by_cases hk : q.1 = k
      · rw [if_pos hk, if_pos hk]; exact h.1.2
      · rw [if_neg hk, if_neg hk]; exact ih h.2

theorem nsC_keys {n : ℕ} {s : NS Obj} {t : NS Val} {m : List (Arr ℝ)} (h : (nsC n s t).holds m) : s.keys = t.keys := by
  induction s generalizing t with
  | nil =>
    cases t with
    | nil => rfl
    | cons q t => exact h.elim
  | cons p s ih =>
    cases t with
    | nil => exact h.elim
    | cons q t =>
      change p.1 :: keys s = q.1 :: keys t
      rw [show p.1 = q.1 from h.1.1, ih h.2]

theorem nsC_set {n : ℕ} {s : NS Obj} {t : NS Val} {u : Obj} {v : Val} {m : List (Arr ℝ)} (h : (nsC n s t).holds m)
    (hv : (valC n u v).holds m) (k : String) : (nsC n (s.set k u) (t.set k v)).holds m := by
  unfold NS.set
  rw [nsC_keys h]
  split
  · clear ‹k ∈ _›
    induction s generalizing t with
    | nil => cases t <;> exact h
    | cons p s ih =>
      cases t with
      | nil => exact h.elim
      | cons q t =>
        refine ⟨?_, ih h.2⟩
        dsimp only
        rw [show p.1 = q.1 from h.1.1]
        by_cases hk : q.1 = k
        · rw [if_pos hk, if_pos hk]; exact ⟨rfl, hv⟩
        · rw [if_neg hk, if_neg hk]; exact h.1
  · clear ‹k ∉ _›
    induction s generalizing t with
    | nil =>
      cases t with
      | nil => exact ⟨⟨rfl, hv⟩, trivial⟩
      | cons q t => exact h.elim
    | cons p s ih =>
      cases t with
      | nil => exact h.elim
      | cons q t => exact ⟨h.1, ih h.2⟩

theorem nsC_without {n : ℕ} {s : NS Obj} {t : NS Val} {m : List (Arr ℝ)} (h : (nsC n s t).holds m) (k : String) :
    (nsC n (s.without k) (t.without k)).holds m := by
  induction s generalizing t with
  | nil =>
    cases t with
    | nil => exact h
    | cons q t => exact h.elim
  | cons p s ih =>
    cases t with
    | nil => exact h.elim
    | cons q t =>
      unfold NS.without
      rw [List.filter_cons, List.filter_cons, show p.1 = q.1 from h.1.1]
      split
      · exact ⟨h.1, ih h.2⟩
      · exact ih h.2

theorem tri_getItem {C : Ctx} {n : ℕ} {s : NS Obj} {t : NS Val} (h : ∀ m, C.holds m → (nsC n s t).holds m) (k : String) :
    Tri C (H.lift (s.getItem k)) (M.lift (t.getItem k)) (valC n) := by
  intro m c
  have := nsC_get? (h _ c) k
  unfold NS.getItem
  cases hs : s.get? k with
  | none =>
    cases ht : t.get? k with
    | none => exact rfl
    | some v => rw [hs, ht] at this; exact this.elim
  | some u =>
    cases ht : t.get? k with
    | none => rw [hs, ht] at this; exact this.elim
    | some v =>
      rw [hs, ht] at this
      exact ⟨v, rfl, .refl _ _, this⟩

theorem tri_asRef {C : Ctx} {n : ℕ} {u : Obj} {v : Val} (h : ∀ m, C.holds m → (valC n u v).holds m) :
    Tri C (H.lift (asRef u)) (M.lift v.asArr) (arrC n) := by
  intro m c
  have := h _ c
  cases u with
  | ref r =>
    cases v with
    | arr a => exact ⟨a, rfl, .refl _ _, this⟩
    | num x => exact this.elim
  | num x =>
    cases v with
    | arr a => exact this.elim
    | num y => exact rfl

theorem tri_zipWith {C : Ctx} {n n' n'' : ℕ} {f : Val → Val → Py Val} {o : NS Obj} {O : NS Val}
    (s : NS Obj) (t : NS Val) (ho : ∀ m, C.holds m → (nsC n'' o O).holds m) (hn : ∀ m, C.holds m → n ≤ m.length)
    (hs : ∀ m, C.holds m → (nsC n' s t).holds m) :
    Tri C (zipWith f s o) (M.lift (NS.zipWith f t O)) (nsC n) := by
  induction s generalizing t C with
  | nil =>
    cases t with
    | nil => exact tri_pure fun _ _ => trivial
    | cons q t => exact fun m c => (hs m.heap c).elim
  | cons p s ih =>
    cases t with
    | nil => exact fun m c => (hs m.heap c).elim
    | cons q t =>
      obtain ⟨k, u⟩ := p
      obtain ⟨k', v⟩ := q
      intro m c
      obtain rfl : k = k' := (hs _ c).1.1
      change At _ _ m (H.lift (o.getItem k) >>= fun w => op f w u >>= fun r => zipWith f s o >>= fun rs => pure ((k, r) :: rs))
        (M.lift (O.getItem k >>= fun w => f w v >>= fun r => NS.zipWith f t O >>= fun rs => .ok ((k, r) :: rs)))
      simp only [liftM_bind]
      refine ((tri_getItem ho k).bind fun w W => ?_ : Tri C _ _ _) m c
      refine (tri_op (n := n) (C := C.and _) (fun m c => c.2) (fun m c => (hs m c.1).1.2) (fun m c => hn m c.1)).bind fun r R => ?_
      refine (ih (C := (C.and _).and _) t (fun m c => ho m c.1.1) (fun m c => hn m c.1.1) (fun m c => (hs m c.1.1).2)).bind fun rs RS => ?_
      exact tri_pure fun m c => ⟨⟨rfl, c.1.2⟩, c.2⟩

theorem tri_mapWith {C : Ctx} {n n' : ℕ} {f : Val → Val → Py Val} {x : ℝ} (s : NS Obj)
    (t : NS Val) (hn : ∀ m, C.holds m → n ≤ m.length) (hs : ∀ m, C.holds m → (nsC n' s t).holds m) :
    Tri C (mapWith f s x) (M.lift (NS.mapWith f t (.num x))) (nsC n) := by
  induction s generalizing t C with
  | nil =>
    cases t with
    | nil => exact tri_pure fun _ _ => trivial
    | cons q t => exact fun m c => (hs m.heap c).elim
  | cons p s ih =>
    cases t with
    | nil => exact fun m c => (hs m.heap c).elim
    | cons q t =>
      obtain ⟨k, u⟩ := p
      obtain ⟨k', v⟩ := q
      intro m c
      obtain rfl : k = k' := (hs _ c).1.1
      change At _ _ m (op f (.num x) u >>= fun r => mapWith f s x >>= fun rs => pure ((k, r) :: rs))
        (M.lift (f (.num x) v >>= fun r => NS.mapWith f t (.num x) >>= fun rs => .ok ((k, r) :: rs)))
      simp only [liftM_bind]
      refine ((tri_op (n := n) (n' := 0) (u := .num x) (a := .num x) (fun m c => rfl) (fun m c => (hs m c).1.2) hn).bind fun r R => ?_ : Tri C _ _ _) m c
      refine (ih (C := C.and _) t (fun m c => hn m c.1) (fun m c => (hs m c.1).2)).bind fun rs RS => ?_
      exact tri_pure fun m c => ⟨⟨rfl, c.1.2⟩, c.2⟩

/-- the references of a dictionary -/
def refs (s : NS Obj) : List ℕ := s.filterMap fun p => match p.2 with
  | .ref r => some r
  | .num _ => none

theorem refs_cons_ref (k : String) (r : ℕ) (s : NS Obj) : refs ((k, .ref r) :: s) = r :: refs s := rfl

theorem refs_cons_num (k : String) (x : ℝ) (s : NS Obj) : refs ((k, .num x) :: s) = refs s := rfl

theorem nsC_refs {n : ℕ} {s : NS Obj} {t : NS Val} {m : List (Arr ℝ)} (h : (nsC n s t).holds m) :
    ∀ r ∈ refs s, n ≤ r ∧ r < m.length := by
  induction s generalizing t with
  | nil => intro r hr; exact absurd hr List.not_mem_nil
  | cons p s ih =>
    cases t with
    | nil => exact h.elim
    | cons q t =>
      obtain ⟨k, u⟩ := p
      obtain ⟨k', v⟩ := q
      intro r hr
      cases u with
      | num x => exact ih h.2 r hr
      | ref r' =>
        rcases List.mem_cons.mp hr with rfl | hr
        · cases v with
          | num y => exact h.1.2.elim
          | arr a => exact ⟨h.1.2.1, lt_of_getElem? h.1.2.2⟩
        · exact ih h.2 r hr

/-- a dictionary with new values for the keys `ks`, no two of them in the same array -/
def newC (n : ℕ) (ks : List String) (s : NS Obj) (t : NS Val) : Ctx :=
  (nsC n s t).and (pureC ((refs s).Nodup ∧ s.keys = ks))

theorem tri_zipWith_new {C : Ctx} {n n' n'' : ℕ} {f : Val → Val → Py Val} {o : NS Obj} {O : NS Val}
    (s : NS Obj) (t : NS Val) (ho : ∀ m, C.holds m → (nsC n'' o O).holds m) (hn : ∀ m, C.holds m → n ≤ m.length)
    (hs : ∀ m, C.holds m → (nsC n' s t).holds m) :
    Tri C (zipWith f s o) (M.lift (NS.zipWith f t O)) (newC n s.keys) := by
  induction s generalizing t C n with
  | nil =>
    cases t with
    | nil => exact tri_pure fun _ _ => ⟨trivial, List.nodup_nil, rfl⟩
    | cons q t => exact fun m c => (hs m.heap c).elim
  | cons p s ih =>
    cases t with
    | nil => exact fun m c => (hs m.heap c).elim
    | cons q t =>
      obtain ⟨k, u⟩ := p
      obtain ⟨k', v⟩ := q
      intro m c
      obtain rfl : k = k' := (hs _ c).1.1
      change At _ _ m (H.lift (o.getItem k) >>= fun w => op f w u >>= fun r => zipWith f s o >>= fun rs => pure ((k, r) :: rs))
        (M.lift (O.getItem k >>= fun w => f w v >>= fun r => NS.zipWith f t O >>= fun rs => .ok ((k, r) :: rs)))
      simp only [liftM_bind]
      refine ((tri_getItem ho k).bind fun w W => ?_ : Tri C _ _ _) m c
      refine Tri.bind (tri_op (n := n) (fun m c => c.2) (fun m c => (hs m c.1).1.2) (fun m c => hn m c.1)) fun r R => ?_
      cases r with
      | num x =>
        refine Tri.bind (ih (n := n) t (fun m c => ho m c.1.1) (fun m c => hn m c.1.1) (fun m c => (hs m c.1.1).2)) fun rs RS => ?_
        exact tri_pure fun m c => ⟨⟨⟨rfl, c.1.2⟩, c.2.1⟩, c.2.2.1, congrArg (k :: ·) c.2.2.2⟩
      | ref r =>
        cases R with
        | num y => exact fun m c => c.2.elim
        | arr a =>
          refine Tri.bind (ih (n := r + 1) t (fun m c => ho m c.1.1) (fun m c => lt_of_getElem? c.2.2)
            (fun m c => (hs m c.1.1).2)) fun rs RS => ?_
          refine tri_pure fun m c => ⟨⟨⟨rfl, c.1.2⟩, nsC_mono ?_ c.2.1⟩, ?_, congrArg (k :: ·) c.2.2.2⟩
          · have : n ≤ r := c.1.2.1
            omega
          · rw [refs_cons_ref, List.nodup_cons]
            refine ⟨fun h => ?_, c.2.2.1⟩
            have := (nsC_refs c.2.1 r h).1
            omega

/-- larger than all references of a list -/
def above (l : List ℕ) : ℕ := l.foldr (fun r a => max (r + 1) a) 0

theorem above_le {l : List ℕ} {n : ℕ} (h : ∀ r ∈ l, r < n) : above l ≤ n := by
  induction l with
  | nil => exact Nat.zero_le _
  | cons r l ih =>
    exact max_le (h r (by simp)) (ih fun r hr => h r (by simp [hr]))

theorem lt_above {l : List ℕ} {r : ℕ} (h : r ∈ l) : r < above l := by
  induction l with
  | nil => exact absurd h List.not_mem_nil
  | cons r' l ih =>
    change r < max (r' + 1) (above l)
    rcases List.mem_cons.mp h with rfl | h
    · omega
    · have := ih h; omega

theorem refs_map_sub (s : NS Obj) (k : String) (u : Obj) :
    ∀ r ∈ refs (s.map fun p => if p.1 = k then (k, u) else p), r ∈ refs s ∨ u = .ref r := by
  induction s with
  | nil => intro r hr; exact absurd hr List.not_mem_nil
  | cons p s ih =>
    intro r hr
    obtain ⟨k', v⟩ := p
    rw [List.map_cons] at hr
    by_cases hk : k' = k
    · rw [if_pos hk] at hr
      cases u with
      | num x =>
        rw [refs_cons_num] at hr
        rcases ih r hr with h | h
        · refine .inl ?_
          cases v with
          | num y => exact h
          | ref q => exact List.mem_cons_of_mem _ h
        · exact .inr h
      | ref q =>
        rw [refs_cons_ref] at hr
        rcases List.mem_cons.mp hr with rfl | hr
        · exact .inr rfl
        rcases ih r hr with h | h
        · refine .inl ?_
          cases v with
          | num y => exact h
          | ref q => exact List.mem_cons_of_mem _ h
        · exact .inr h
    · rw [if_neg hk] at hr
      cases v with
      | num x => exact ih r hr
      | ref q =>
        rw [refs_cons_ref] at hr
        rcases List.mem_cons.mp hr with rfl | hr
        · exact .inl (List.mem_cons_self ..)
        · rcases ih r hr with h | h
          · exact .inl (List.mem_cons_of_mem _ h)
          · exact .inr h

theorem map_of_not_mem {s : NS Obj} {k : String} (u : Obj) (h : k ∉ s.keys) :
    (s.map fun p => if p.1 = k then (k, u) else p) = s := by
  induction s with
  | nil => rfl
  | cons p s ih =>
    change k ∉ p.1 :: keys s at h
    rw [List.mem_cons, not_or] at h
    rw [List.map_cons, ih h.2, if_neg fun e => h.1 e.symm]

theorem nodup_refs_set {s : NS Obj} (hs : (refs s).Nodup) (hk : s.keys.Nodup) (k : String) {u : Obj}
    (hu : ∀ r, u = .ref r → r ∉ refs s) : (refs (s.set k u)).Nodup := by
  unfold NS.set
  split
  · clear ‹k ∈ _›
    induction s with
    | nil => exact List.nodup_nil
    | cons p s ih =>
      obtain ⟨k', v⟩ := p
      change (k' :: keys s).Nodup at hk
      rw [List.nodup_cons] at hk
      have hs' : (refs s).Nodup := by
        cases v with
        | num x => exact hs
        | ref r => exact (List.nodup_cons.mp hs).2
      have hu' : ∀ r, u = .ref r → r ∉ refs s := fun r e h => by
        refine hu r e ?_
        cases v with
        | num x => exact h
        | ref q => exact List.mem_cons_of_mem _ h
      rw [List.map_cons]
      by_cases e : k' = k
      · rw [if_pos e, map_of_not_mem u (e ▸ hk.1)]
        cases u with
        | num x => exact hs'
        | ref r => exact List.nodup_cons.mpr ⟨hu' r rfl, hs'⟩
      · rw [if_neg e]
        cases v with
        | num x => exact ih hs' hk.2 hu'
        | ref r =>
          refine List.nodup_cons.mpr ⟨fun h => ?_, ih hs' hk.2 hu'⟩
          rcases refs_map_sub s k u r h with h | h
          · exact (List.nodup_cons.mp hs).1 h
          · exact hu r h (List.mem_cons_self ..)
  · have e : refs (s ++ [(k, u)]) = refs s ++ refs [(k, u)] := by unfold refs; rw [List.filterMap_append]
    rw [e]
    cases u with
    | num x => change (refs s ++ []).Nodup; rw [List.append_nil]; exact hs
    | ref r =>
      change (refs s ++ [r]).Nodup
      rw [List.nodup_append]
      refine ⟨hs, by simp, fun a ha b hb e => ?_⟩
      rw [List.mem_singleton.mp hb] at e
      exact hu r rfl (e ▸ ha)

theorem keys_set (s : NS Obj) (k : String) (u : Obj) (hk : s.keys.Nodup) : (s.set k u).keys.Nodup := by
  unfold NS.set
  split
  · have : (keys (s.map fun p => if p.1 = k then (k, u) else p)) = s.keys := by
      unfold keys
      rw [List.map_map]
      refine List.map_congr_left fun p _ => ?_
      dsimp only [Function.comp]
      split <;> simp_all
    rw [this]; exact hk
  · next h =>
    unfold keys at hk h ⊢
    rw [List.map_append, List.nodup_append]
    refine ⟨hk, by simp, fun a ha b hb e => ?_⟩
    rw [List.map_singleton, List.mem_singleton] at hb
    rw [e.trans hb] at ha
    exact h ha

/-! ### the numerical parts -/

/-- what `same` may claim about the scheme: with `N = 0` it returns its argument -/
def Returns (same : Bool) (hw : HW) : Prop :=
  same = true → ∀ a dx, hw.backend.diffuse_N a dx 0 = .ok a

theorem tri_get_phi {C : Ctx} {n n' : ℕ} (hw : HW) {o : ℕ} {O : Arr ℝ} (dx : ℝ)
    (h : ∀ m, C.holds m → (arrC n' o O).holds m) (hn : ∀ m, C.holds m → n ≤ m.length) :
    Tri C (get_phi hw o dx) (hw.get_phi O dx) (arrC n) := by
  unfold get_phi HW.get_phi
  dsimp only
  refine (tri_un (n := n) (f := fun o => .ok (o.map (· - o.mean))) h hn).bindPure fun c => ?_
  refine (tri_un (n := n) (C := C.and _) (fun m c => c.2) (fun m c => hn m c.1)).bind fun p P => ?_
  refine (tri_log (R := fun _ _ => pureC True) fun _ _ => trivial).bind fun _ _ => ?_
  exact tri_pure fun m c => c.1.2

theorem tri_diffuse {C : Ctx} {n : ℕ} {same : Bool} (hw : HW) (hr : Returns same hw) {o : ℕ} {O : Arr ℝ} (dx : ℝ) (N : ℕ)
    (h : ∀ m, C.holds m → (arrC n o O).holds m) :
    Tri C (diffuse same hw o dx N) (hw.diffuse O dx N) (arrC 0) := by
  unfold diffuse HW.diffuse
  have : Tri C (diffuse_N same hw o dx N) (M.lift (hw.backend.diffuse_N O dx N)) (arrC 0) := by
    unfold diffuse_N
    split
    · next hs =>
      rw [hs.2, hr hs.1]
      exact tri_pure fun m c => ⟨Nat.zero_le _, (h m c).2⟩
    · exact tri_un h fun _ _ => Nat.zero_le _
  refine this.bind fun p P => ?_
  refine (tri_log (R := fun _ _ => pureC True) fun _ _ => trivial).bind fun _ _ => ?_
  exact tri_pure fun m c => c.1.2

theorem Tri.at {C : Ctx} {x : H α} {y : M β} {R : α → β → Ctx} (h : Tri C x y R) {m : Mem} (c : C.holds m.heap) :
    At none' (fun h a b => (R a b).holds h) m x y := h m c

/-- `x` holds `X` -/
def Is (x : ℕ) (X : Arr ℝ) (h : List (Arr ℝ)) : Prop := h[x]? = some X

theorem Is.keep {W : ℕ → Prop} {x : ℕ} {X : Arr ℝ} {h h' : List (Arr ℝ)} (e : Is x X h) (k : Kp W h h') (w : ¬ W x) :
    Is x X h' := by
  unfold Is at e ⊢
  rw [k.2 x (lt_of_getElem? e) w, e]

theorem at_addInPlace {m : Mem} {x y : ℕ} {X Y : Arr ℝ} (hx : Is x X m.heap) (hy : Is y Y m.heap) :
    At (· = x) (fun h _ X' => Is x X' h) m (addInPlace x y) (M.lift (iadd X Y)) := by
  have e : addInPlace x y m = (iadd X Y).map fun c => ((), { m with heap := m.heap.set x c }) := by
    have gx : get x m = .ok (X, m) := by unfold get; rw [hx]
    have gy : get y m = .ok (Y, m) := by unfold get; rw [hy]
    change (get x m >>= fun r => (get y r.2 >>= fun s => (H.lift (iadd r.1 s.1) s.2 >>= fun t => put x t.1 t.2))) = _
    rw [gx]
    change (get y m >>= fun s => (H.lift (iadd X s.1) s.2 >>= fun t => put x t.1 t.2)) = _
    rw [gy]
    change (H.lift (iadd X Y) m >>= fun t => put x t.1 t.2) = _
    unfold H.lift
    cases iadd X Y <;> rfl
  unfold At M.lift
  rw [e]
  cases iadd X Y with
  | error e => rfl
  | ok c =>
    refine ⟨c, rfl, ⟨by simp, fun r hr w => ?_⟩, ?_⟩
    · change (m.heap.set x c)[r]? = _
      rw [List.getElem?_set_ne (fun f => w f.symm)]
    · change (m.heap.set x c)[x]? = _
      rw [List.getElem?_set_self (lt_of_getElem? hx)]

theorem at_addBracket {m : Mem} (hw : HW) {x phi psi : ℕ} {X P Q : Arr ℝ} (dx : ℝ) (hx : Is x X m.heap)
    (hp : Is phi P m.heap) (hq : Is psi Q m.heap) :
    At (· = x) (fun h _ X' => Is x X' h) m (addBracket hw x phi psi dx) (hw.addBracket X P Q dx) := by
  unfold addBracket HW.addBracket
  split
  · refine At.bind (tri_bin (n := 0) (C := (arrC 0 phi P).and (arrC 0 psi Q)) (fun m c => c.1) (fun m c => c.2)
      (fun _ _ => Nat.zero_le _) m ⟨⟨Nat.zero_le _, hp⟩, Nat.zero_le _, hq⟩) (fun b B m1 k1 r1 => ?_)
      (W2 := (· = x)) fun r _ w => ⟨fun f => f, w⟩
    have t := tri_un (n := 0) (C := arrC 0 b B) (f := fun b => .ok (b.map (-hw.poisson_bracket_coeff * ·)))
      (fun m c => c) (fun _ _ => Nat.zero_le _) m1 r1
    refine At.bind (W2 := (· = x)) (g := fun A => logCall (fun c => { c with poisson_bracket := c.poisson_bracket + 1 }) >>=
      fun _ => M.lift (iadd X A)) t (fun a A m2 k2 r2 => ?_) fun r _ w => ⟨fun f => f, w⟩
    have l := tri_log (C := pureC True) (f := fun c => { c with poisson_bracket := c.poisson_bracket + 1 })
      (R := fun _ _ => pureC True) (fun _ _ => trivial) m2 trivial
    refine At.bind l (fun _ _ m3 k3 _ => ?_) (W2 := (· = x)) fun r _ w => ⟨fun f => f, w⟩
    exact at_addInPlace (((hx.keep k1 fun f => f).keep k2 fun f => f).keep k3 fun f => f) (Is.keep r2.2 k3 fun f => f)
  · exact ⟨X, rfl, .refl _ _, hx⟩

theorem at_addKappa {m : Mem} (hw : HW) {x d : ℕ} {X D : Arr ℝ} (hx : Is x X m.heap) (hd : Is d D m.heap) :
    At (· = x) (fun h _ X' => Is x X' h) m (addKappa hw x d) (M.lift (hw.addKappa X D)) := by
  unfold addKappa HW.addKappa
  split
  · have t := tri_un (n := 0) (C := arrC 0 d D) (f := fun b => .ok (b.map (-hw.kappa_coeff * ·)))
      (fun m c => c) (fun _ _ => Nat.zero_le _) m ⟨Nat.zero_le _, hd⟩
    refine At.bind (W2 := (· = x)) (g := fun A => M.lift (iadd X A)) t (fun a A m2 k2 r2 => ?_) fun r _ w => ⟨fun f => f, w⟩
    exact at_addInPlace (hx.keep k2 fun f => f) r2.2
  · exact ⟨X, rfl, .refl _ _, hx⟩

theorem at_addDiffusion {m : Mem} {same : Bool} (hw : HW) (hr : Returns same hw) {x f : ℕ} {X F : Arr ℝ} (dx : ℝ)
    (hx : Is x X m.heap) (hf : Is f F m.heap) :
    At (· = x) (fun h v R => Is x R.1 h ∧ (valC 0 v R.2).holds h) m (addDiffusion same hw x f dx)
      (hw.addDiffusion X F dx) := by
  unfold addDiffusion HW.addDiffusion
  split
  · have t := tri_diffuse (n := 0) (C := arrC 0 f F) hw hr dx hw.N (fun m c => c) m ⟨Nat.zero_le _, hf⟩
    refine At.bind t (fun d D m1 k1 r1 => ?_) (W2 := (· = x)) fun r _ w => ⟨fun f => f, w⟩
    have t := tri_un (n := m1.heap.length) (C := (arrC 0 d D).and (sizeC m1.heap.length))
      (f := fun b => .ok (b.map (hw.nu * ·))) (fun m c => c.1) (fun _ c => c.2) m1 ⟨r1, le_rfl⟩
    refine At.bind (W2 := (· = x)) (g := fun A => M.lift (iadd X A) >>= fun x => pure (x, Val.arr A)) t
      (fun a A m2 k2 r2 => ?_) fun r _ w => ⟨fun f => f, w⟩
    have hx1 := hx.keep k1 fun f => f
    refine At.bind (at_addInPlace (hx1.keep k2 fun f => f) r2.2) (fun _ X' m3 k3 r3 => ?_) (W2 := none')
      fun r _ w => ⟨w, fun f => f⟩
    refine ⟨(X', .arr A), rfl, .refl _ _, r3, Nat.zero_le _, Is.keep r2.2 k3 fun e => ?_⟩
    have := lt_of_getElem? hx1
    have := r2.1
    omega
  · exact ⟨(X, .num 0), rfl, .refl _ _, hx, rfl⟩

theorem At.mono {W W' : ℕ → Prop} {R S : List (Arr ℝ) → α → β → Prop} {m : Mem} {x : H α} {y : M β} (h : At W R m x y)
    (w : ∀ r, W r → W' r) (t : ∀ h a b, R h a b → S h a b) : At W' S m x y := by
  unfold At at h ⊢
  cases hx : x m with
  | error e => rw [hx] at h; exact h
  | ok r =>
    rw [hx] at h
    obtain ⟨b, e, k, r⟩ := h
    exact ⟨b, e, ⟨k.1, fun i hi hw => k.2 i hi fun f => hw (w _ f)⟩, t _ _ _ r⟩

/-- a new array and a term of it -/
def termC (n : ℕ) (p : ℕ × Obj) (q : Arr ℝ × Val) : Ctx := (arrC n p.1 q.1).and (valC 0 p.2 q.2)

theorem tri_newOmega {C : Ctx} {n n1 n2 n3 : ℕ} {same : Bool} (hw : HW) (hr : Returns same hw) {diff phi omega : ℕ}
    {D P O : Arr ℝ} (dx : ℝ) (hn : ∀ m, C.holds m → n ≤ m.length) (hd : ∀ m, C.holds m → (arrC n1 diff D).holds m)
    (hp : ∀ m, C.holds m → (arrC n2 phi P).holds m) (ho : ∀ m, C.holds m → (arrC n3 omega O).holds m) :
    Tri C (newOmega same hw diff phi omega dx)
      (hw.addBracket (D.map (hw.c1 * ·)) P O dx >>= fun o => hw.addDiffusion o O dx) (termC n) := by
  intro m c
  unfold newOmega
  have t := tri_un (n := m.heap.length) (C := C.and (sizeC m.heap.length)) (f := fun b => .ok (b.map (hw.c1 * ·)))
    (fun m c => hd m c.1) (fun _ c => c.2) m ⟨c, le_rfl⟩
  refine At.bind (W2 := (m.heap.length ≤ ·)) (g := fun X => hw.addBracket X P O dx >>= fun o => hw.addDiffusion o O dx) t
    (fun o X m1 k1 r1 => ?_) fun r hr w => ⟨w, fun f => by omega⟩
  have hp1 : Is phi P m1.heap := Is.keep (hp _ c).2 k1 fun f => f
  have ho1 : Is omega O m1.heap := Is.keep (ho _ c).2 k1 fun f => f
  have lo := lt_of_getElem? (ho _ c).2
  have le : m.heap.length ≤ o := r1.1
  refine At.mono (W := (· = o)) (R := fun h a b => (termC n a b).holds h) ?_ (fun r e => e ▸ le) fun _ _ _ r => r
  refine At.bind (at_addBracket hw dx r1.2 hp1 ho1) (fun _ X' m2 k2 r2 => ?_) (W2 := (· = o)) fun r _ w => ⟨w, w⟩
  rw [show hw.addDiffusion X' O dx = hw.addDiffusion X' O dx >>= pure from (bind_pure _).symm]
  refine At.bind (at_addDiffusion hw hr dx r2 (ho1.keep k2 (by omega))) (fun v Q m3 k3 r3 => ?_) (W2 := none')
    fun r _ w => ⟨w, fun f => f⟩
  exact ⟨Q, rfl, .refl _ _, ⟨(hn _ c).trans le, r3.1⟩, r3.2⟩

theorem tri_newDensity {C : Ctx} {n n1 n2 n3 n4 : ℕ} {same : Bool} (hw : HW) (hr : Returns same hw)
    {diff phi density dy : ℕ} {D P N Y : Arr ℝ} (dx : ℝ) (hn : ∀ m, C.holds m → n ≤ m.length)
    (hd : ∀ m, C.holds m → (arrC n1 diff D).holds m) (hp : ∀ m, C.holds m → (arrC n2 phi P).holds m)
    (ho : ∀ m, C.holds m → (arrC n3 density N).holds m) (hy : ∀ m, C.holds m → (arrC n4 dy Y).holds m) :
    Tri C (newDensity same hw diff phi density dy dx)
      (hw.addBracket (D.map (hw.c1 * ·)) P N dx >>= fun n => M.lift (hw.addKappa n Y) >>= fun n => hw.addDiffusion n N dx)
      (termC n) := by
  intro m c
  unfold newDensity
  have t := tri_un (n := m.heap.length) (C := C.and (sizeC m.heap.length)) (f := fun b => .ok (b.map (hw.c1 * ·)))
    (fun m c => hd m c.1) (fun _ c => c.2) m ⟨c, le_rfl⟩
  refine At.bind (W2 := (m.heap.length ≤ ·)) (g := fun X => hw.addBracket X P N dx >>= fun n =>
    M.lift (hw.addKappa n Y) >>= fun n => hw.addDiffusion n N dx) t
    (fun o X m1 k1 r1 => ?_) fun r hr w => ⟨w, fun f => by omega⟩
  have hp1 : Is phi P m1.heap := Is.keep (hp _ c).2 k1 fun f => f
  have ho1 : Is density N m1.heap := Is.keep (ho _ c).2 k1 fun f => f
  have hy1 : Is dy Y m1.heap := Is.keep (hy _ c).2 k1 fun f => f
  have lo := lt_of_getElem? (ho _ c).2
  have ly := lt_of_getElem? (hy _ c).2
  have le : m.heap.length ≤ o := r1.1
  refine At.mono (W := (· = o)) (R := fun h a b => (termC n a b).holds h) ?_ (fun r e => e ▸ le) fun _ _ _ r => r
  refine At.bind (at_addBracket hw dx r1.2 hp1 ho1) (fun _ X' m2 k2 r2 => ?_) (W2 := (· = o)) fun r _ w => ⟨w, w⟩
  have ho2 := ho1.keep k2 (show ¬ density = o by omega)
  refine At.bind (at_addKappa hw r2 (hy1.keep k2 (by omega))) (fun _ X'' m3 k3 r3 => ?_) (W2 := (· = o)) fun r _ w => ⟨w, w⟩
  rw [show hw.addDiffusion X'' N dx = hw.addDiffusion X'' N dx >>= pure from (bind_pure _).symm]
  refine At.bind (at_addDiffusion hw hr dx r3 (ho2.keep k3 (by omega))) (fun v Q m3 k3 r3 => ?_) (W2 := none')
    fun r _ w => ⟨w, fun f => f⟩
  exact ⟨Q, rfl, .refl _ _, ⟨(hn _ c).trans le, r3.1⟩, r3.2⟩

theorem tri_coupling {C : Ctx} {n n1 : ℕ} {phi density : ℕ} {P N : Arr ℝ} (zonal : Bool)
    (hp : ∀ m, C.holds m → (arrC n phi P).holds m) (hd : ∀ m, C.holds m → (arrC n1 density N).holds m) :
    Tri C (coupling phi density zonal) (M.lift (HW.coupling P N zonal)) (arrC 0) := by
  unfold coupling HW.coupling
  split
  · simp only [liftM_bind]
    refine (tri_un (n := 0) (f := Zonal.zonal_transform) hp fun _ _ => Nat.zero_le _).bind fun a A => ?_
    refine (tri_un (n := 0) (C := C.and (arrC 0 a A)) (f := Zonal.zonal_transform) (a := N) (r := density) (fun m c => hd m c.1) fun _ _ => Nat.zero_le _).bind fun b B => ?_
    exact tri_bin (n := 0) (n' := 0) (n'' := 0) (a := A) (b := B) (C := (C.and (arrC 0 a A)).and (arrC 0 b B))
      (f := fun a b => (.ok a - .ok b : Py (Arr ℝ))) (fun m c => c.1.2) (fun m c => c.2) fun _ _ => Nat.zero_le _
  · have := tri_bin (n := 0) (a := P) (b := N) (C := C) (f := fun a b => (.ok a - .ok b : Py (Arr ℝ))) hp hd
      fun _ _ => Nat.zero_le _
    exact this

theorem tri_addAge {C : Ctx} {n n' : ℕ} {d : NS Obj} {D : NS Val} {a : Option Obj} {A : Option Val} (dt : ℝ)
    (hn : ∀ m, C.holds m → n ≤ m.length) (hd : ∀ m, C.holds m → (nsC n d D).holds m)
    (ha : ∀ m, C.holds m → (optC n' a A).holds m) : Tri C (addAge d a dt) (M.lift (HW.addAge D A dt)) (nsC n) := by
  unfold addAge HW.addAge
  cases a with
  | none =>
    cases A with
    | none => exact tri_pure hd
    | some v => exact fun m c => (ha _ c).elim
  | some u =>
    cases A with
    | none => exact fun m c => (ha _ c).elim
    | some v =>
      simp only [liftM_bind]
      refine (tri_op (n := n) (n'' := 0) (v := .num dt) (b := .num dt) ha (fun m c => rfl) hn).bind fun r R => ?_
      exact tri_pure fun m c => nsC_set (hd m c.1) c.2 "age"

theorem tri_addConservation {C : Ctx} {n n1 n2 n3 n4 : ℕ} {same : Bool} (hw : HW) (hr : Returns same hw) {d : NS Obj}
    {D : NS Val} {density omega phi : ℕ} {Nn O P : Arr ℝ} {Dn : Obj} {DN : Val} (dx : ℝ)
    (hd : ∀ m, C.holds m → (nsC n d D).holds m)
    (h1 : ∀ m, C.holds m → (arrC n1 density Nn).holds m) (h2 : ∀ m, C.holds m → (arrC n2 omega O).holds m)
    (h3 : ∀ m, C.holds m → (arrC n3 phi P).holds m) (h4 : ∀ m, C.holds m → (valC n4 Dn DN).holds m) :
    Tri C (addConservation same hw d density omega phi Dn dx) (hw.addConservation D Nn O P DN dx) (nsC n) := by
  unfold addConservation HW.addConservation
  split
  · refine (tri_get h1).bindPure fun a => ?_
    refine (tri_get (C := C.and _) (fun m c => h2 m c.1)).bindPure fun b => ?_
    refine (tri_get (C := (C.and _).and _) (fun m c => h3 m c.1.1)).bindPure fun p => ?_
    intro m c
    obtain rfl : a = Nn := c.1.1.2
    obtain rfl : b = O := c.1.2
    obtain rfl : p = P := c.2
    refine (?_ : Tri C _ _ _) m c.1.1.1
    refine (tri_lift (hw.get_gammas a p)).bind fun g G => ?_
    refine (tri_diffuse (C := C.and _) hw hr dx hw.N fun m c => h3 m c.1).bind fun dp DP => ?_
    refine (tri_un (n := 0) (C := (C.and _).and _) (f := fun d => .ok (d.map (hw.nu * ·))) (fun m c => c.2)
      fun _ _ => Nat.zero_le _).bindPure fun e => ?_
    refine (tri_fetch (C := ((C.and _).and _).and _) fun m c => h4 m c.1.1.1).bindPure fun v => ?_
    refine (tri_get (C := (((C.and _).and _).and _).and _) fun m c => c.1.2).bindPure fun q => ?_
    intro m c
    obtain rfl : g = G := c.1.1.1.1.2
    obtain rfl : v = DN := c.1.2
    obtain rfl : q = DP.map (hw.nu * ·) := c.2
    refine (?_ : Tri C _ _ _) m c.1.1.1.1.1
    refine (tri_lift _).bind fun x X => ?_
    refine (tri_lift _).bind fun y Y => ?_
    intro m c
    obtain rfl : x = X := c.1.2
    obtain rfl : y = Y := c.2
    exact ⟨_, rfl, .refl _ _, nsC_set (u := .num _) (v := .num _) (nsC_set (u := .num _) (v := .num _)
      (hd _ c.1.1) rfl "dE") rfl "dU"⟩
  · exact tri_pure hd

/-! ### whole steps -/

theorem hw2d_gradient_grouped (hw : HW) (density omega : Arr ℝ) (phi : Option (Arr ℝ)) (age : Option Val) (dt dx : ℝ)
    (zonal : Bool) : hw.hw2d_gradient density omega phi age dt dx zonal = (do
      let phi ← phi.elim (hw.get_phi omega dx) pure
      let dy_p ← M.lift (hw.backend.gradient_func phi dx 0)
      logCall fun c => { c with gradient_2d := c.gradient_2d + 1 }
      let diff ← M.lift (HW.coupling phi density zonal)
      let oD ← (hw.addBracket (diff.map (hw.c1 * ·)) phi omega dx >>= fun o => hw.addDiffusion o omega dx)
      let nD ← (hw.addBracket (diff.map (hw.c1 * ·)) phi density dx >>= fun n => M.lift (hw.addKappa n dy_p) >>= fun n =>
        hw.addDiffusion n density dx)
      let return_dict ← M.lift (HW.addAge [("density", .arr nD.1), ("omega", .arr oD.1)] age dt)
      hw.addConservation return_dict density omega phi nD.2 dx) := by
  unfold HW.hw2d_gradient
  simp only [bind_assoc]

/-- the optional potential -/
def optA (n : ℕ) : Option ℕ → Option (Arr ℝ) → Ctx
  | none, none => pureC True
  | some u, some v => arrC n u v
  | _, _ => pureC False

theorem tri_hw2d_gradient {C : Ctx} {n n1 n2 n3 n4 : ℕ} {same : Bool} (hw : HW) (hr : Returns same hw) {density omega : ℕ}
    {phi : Option ℕ} {age : Option Obj} {Nn O : Arr ℝ} {P : Option (Arr ℝ)} {A : Option Val} (dt dx : ℝ) (zonal : Bool)
    (hn : ∀ m, C.holds m → n ≤ m.length)
    (h1 : ∀ m, C.holds m → (arrC n1 density Nn).holds m) (h2 : ∀ m, C.holds m → (arrC n2 omega O).holds m)
    (h3 : ∀ m, C.holds m → (optA n3 phi P).holds m) (h4 : ∀ m, C.holds m → (optC n4 age A).holds m) :
    Tri C (hw2d_gradient same hw density omega phi age dt dx zonal) (hw.hw2d_gradient Nn O P A dt dx zonal) (nsC n) := by
  rw [hw2d_gradient_grouped]
  unfold hw2d_gradient
  have t : Tri C (phi.elim (get_phi hw omega dx) pure) (P.elim (hw.get_phi O dx) pure) (arrC 0) := by
    cases phi with
    | none =>
      cases P with
      | none => exact tri_get_phi hw dx h2 fun _ _ => Nat.zero_le _
      | some p => exact fun m c => (h3 _ c).elim
    | some r =>
      cases P with
      | none => exact fun m c => (h3 _ c).elim
      | some p => exact tri_pure fun m c => ⟨Nat.zero_le _, (h3 m c).2⟩
  refine t.bind fun p P => ?_
  refine Tri.bind (tri_un (n := 0) (a := P) (C := C.and (arrC 0 p P)) (f := fun p => hw.backend.gradient_func p dx 0)
    (fun m c => c.2) fun _ _ => Nat.zero_le _) fun y Y => ?_
  refine Tri.bind (tri_log (R := fun _ _ => pureC True) fun _ _ => trivial) fun _ _ => ?_
  refine Tri.pre (D := (C.and (arrC 0 p P)).and (arrC 0 y Y)) ?_ fun m c => c.1
  refine Tri.bind (tri_coupling zonal (fun m c => c.1.2) (fun m c => h1 m c.1.1)) fun d D => ?_
  refine Tri.bind (tri_newOmega (n := n) hw hr dx (fun m c => hn m c.1.1.1) (fun m c => c.2) (fun m c => c.1.1.2)
    (fun m c => h2 m c.1.1.1)) fun o O' => ?_
  refine Tri.bind (tri_newDensity (n := n) hw hr dx (fun m c => hn m c.1.1.1.1) (fun m c => c.1.2) (fun m c => c.1.1.1.2)
    (fun m c => h1 m c.1.1.1.1) (fun m c => c.1.1.2)) fun q Q => ?_
  refine Tri.bind (tri_addAge (n := n) dt (fun m c => hn m c.1.1.1.1.1)
    (fun m c => ⟨⟨rfl, c.2.1⟩, ⟨⟨rfl, c.1.2.1⟩, trivial⟩⟩) (fun m c => h4 m c.1.1.1.1.1)) fun r R => ?_
  exact tri_addConservation (n4 := 0) hw hr dx (fun m c => c.2) (fun m c => h1 m c.1.1.1.1.1.1)
    (fun m c => h2 m c.1.1.1.1.1.1) (fun m c => c.1.1.1.1.1.2) (fun m c => c.1.2.2)

theorem tri_gradient_2d {C : Ctx} {n n1 n2 : ℕ} {same : Bool} (hw : HW) (hr : Returns same hw) {y : NS Obj}
    {Y : NS Val} {phi : Option Obj} {P : Option Val} (dt dx : ℝ) (zonal : Bool) (hn : ∀ m, C.holds m → n ≤ m.length)
    (h1 : ∀ m, C.holds m → (nsC n1 y Y).holds m) (h2 : ∀ m, C.holds m → (optC n2 phi P).holds m) :
    Tri C (gradient_2d same hw y phi dt dx zonal) (hw.gradient_2d Y P dt dx zonal) (nsC n) := by
  intro m c
  unfold gradient_2d HW.gradient_2d
  rw [nsC_keys (h1 _ c)]
  split
  · exact rfl
  have hd := nsC_get? (h1 _ c) "density"
  have ho := nsC_get? (h1 _ c) "omega"
  have hd' : ∀ m, C.holds m → (optC n1 (y.get? "density") (Y.get? "density")).holds m := fun m c => nsC_get? (h1 _ c) "density"
  have ho' : ∀ m, C.holds m → (optC n1 (y.get? "omega") (Y.get? "omega")).holds m := fun m c => nsC_get? (h1 _ c) "omega"
  cases ed : y.get? "density" with
  | none =>
    cases eD : Y.get? "density" with
    | none => exact rfl
    | some v => rw [ed, eD] at hd; exact hd.elim
  | some d =>
    cases eD : Y.get? "density" with
    | none => rw [ed, eD] at hd; exact hd.elim
    | some D =>
      cases eo : y.get? "omega" with
      | none =>
        cases eO : Y.get? "omega" with
        | none => exact rfl
        | some v => rw [eo, eO] at ho; exact ho.elim
      | some o =>
        cases eO : Y.get? "omega" with
        | none => rw [eo, eO] at ho; exact ho.elim
        | some O =>
          rw [ed, eD] at hd'
          rw [eo, eO] at ho'
          refine (?_ : Tri C _ _ _) m c
          refine Tri.bind (tri_asRef hd') fun r R => ?_
          refine Tri.bind (tri_asRef fun m c => ho' m c.1) fun s S => ?_
          have tp : Tri ((C.and (arrC n1 r R)).and (arrC n1 s S)) (H.lift (phi.elim (.ok none) fun p => (asRef p).map some))
              (M.lift (P.elim (.ok none) fun p => p.asArr.map some)) (optA n2) := by
            intro m c
            have := h2 _ c.1.1
            cases phi with
            | none =>
              cases P with
              | none => exact ⟨none, rfl, .refl _ _, trivial⟩
              | some v => exact this.elim
            | some u =>
              cases P with
              | none => exact this.elim
              | some v =>
                cases u with
                | ref r =>
                  cases v with
                  | arr a => exact ⟨some a, rfl, .refl _ _, this⟩
                  | num x => exact this.elim
                | num x =>
                  cases v with
                  | arr a => exact this.elim
                  | num y => exact rfl
          refine tp.bind fun q Q => ?_
          exact tri_hw2d_gradient hw hr dt dx zonal (fun m c => hn m c.1.1.1) (fun m c => c.1.1.2) (fun m c => c.1.2)
            (fun m c => c.2) (fun m c => nsC_get? (h1 m c.1.1.1) "age")

theorem tri_get_phi_of {C : Ctx} {n n1 : ℕ} (hw : HW) {y : NS Obj} {Y : NS Val} (dx : ℝ)
    (hn : ∀ m, C.holds m → n ≤ m.length) (h1 : ∀ m, C.holds m → (nsC n1 y Y).holds m) :
    Tri C (get_phi_of hw y dx) (hw.get_phi_of Y dx) (valC n) := by
  unfold get_phi_of HW.get_phi_of
  refine Tri.bind (tri_getItem h1 "omega") fun u U => ?_
  refine Tri.bind (tri_asRef fun m c => c.2) fun r R => ?_
  refine Tri.bind (tri_get_phi (n := n) hw dx (fun m c => c.2) fun m c => hn m c.1.1) fun p P => ?_
  exact tri_pure fun m c => c.2

theorem tri_nextAge {C : Ctx} {n n1 : ℕ} {y : NS Obj} {Y : NS Val} (dt : ℝ)
    (hn : ∀ m, C.holds m → n ≤ m.length) (h1 : ∀ m, C.holds m → (nsC n1 y Y).holds m) :
    Tri C (nextAge y dt) (M.lift (Y.getItem "age") >>= fun a => M.lift (Ops.add a (.num dt))) (valC n) := by
  unfold nextAge
  refine Tri.bind (tri_getItem h1 "age") fun u U => ?_
  exact tri_op (n'' := 0) (v := .num dt) (b := .num dt) (fun m c => c.2) (fun m c => rfl) fun m c => hn m c.1

/-- a returned state: new arrays, no array twice -/
def stateC (n : ℕ) (s : NS Obj) (t : NS Val) : Ctx := (nsC n s t).and (pureC ((refs s).Nodup ∧ s.keys.Nodup))

theorem valC_new {n : ℕ} {u : Obj} {v : Val} {m : List (Arr ℝ)} (h : (valC n u v).holds m) {r : ℕ} (e : u = .ref r) :
    n ≤ r := by
  subst e
  cases v with
  | num x => exact h.elim
  | arr a => exact h.1

theorem tri_tail {C : Ctx} {n n1 : ℕ} (hw : HW) {s y : NS Obj} {S Y : NS Val} (dt dx : ℝ)
    (hk : s.keys.Nodup) (hn : ∀ m, C.holds m → n ≤ m.length) (h1 : ∀ m, C.holds m → (nsC n1 s S).holds m)
    (h2 : ∀ m, C.holds m → (newC n (s.without "phi").keys y Y).holds m) :
    Tri C (do
      let phi ← get_phi_of hw y dx
      let y := y.set "phi" phi
      let age ← nextAge s dt
      let y := y.set "age" age
      logH fun c => { c with full_step := c.full_step + 1 }
      return y) (do
      let phi ← hw.get_phi_of Y dx
      let age ← (M.lift (S.getItem "age") >>= fun a => M.lift (Ops.add a (.num dt)))
      logCall fun c => { c with full_step := c.full_step + 1 }
      pure ((Y.set "phi" phi).set "age" age)) (stateC n) := by
  refine Tri.bind (tri_get_phi_of (n := max n (above (refs y))) hw dx
    (fun m c => max_le (hn m c) (above_le fun r hr => (nsC_refs (h2 m c).1 r hr).2)) fun m c => (h2 m c).1) fun p P => ?_
  have ky : ∀ m, C.holds m → y.keys.Nodup := fun m c => by
    rw [(h2 m c).2.2]
    unfold NS.without keys
    exact (hk.sublist (List.Sublist.map _ List.filter_sublist) :)
  refine Tri.bind (tri_nextAge (n := max n (above (refs (y.set "phi" p)))) dt
    (fun m c => max_le (hn m c.1) (above_le fun r hr =>
      (nsC_refs (nsC_set (h2 m c.1).1 (valC_mono (le_max_left _ _) c.2) "phi") r hr).2)) fun m c => h1 m c.1) fun a A => ?_
  refine Tri.bind (tri_log (R := fun _ _ => pureC True) fun _ _ => trivial) fun _ _ => ?_
  refine tri_pure fun m c => ?_
  obtain ⟨⟨⟨c0, cp⟩, ca⟩, -⟩ := c
  have k1 := keys_set y "phi" p (ky m c0)
  refine ⟨nsC_set (nsC_set (h2 m c0).1 (valC_mono (le_max_left _ _) cp) "phi") (valC_mono (le_max_left _ _) ca) "age",
    nodup_refs_set (nodup_refs_set (h2 m c0).2.1 (ky m c0) "phi" ?_) k1 "age" ?_, keys_set _ "age" a k1⟩
  · intro r e hr
    have := (le_max_right _ _).trans (valC_new cp e)
    have := lt_above hr
    omega
  · intro r e hr
    have := (le_max_right _ _).trans (valC_new ca e)
    have := lt_above hr
    omega

theorem euler_grouped (hw : HW) (plasma : NS Val) (dt dx : ℝ) : hw.euler_step plasma dt dx = (do
      let g ← hw.gradient_2d (plasma.without "phi") (plasma.get? "phi") 0 dx hw.zonal
      let d ← M.lift (NS.mapWith Ops.mul g (.num dt))
      let y ← M.lift (NS.zipWith Ops.add (plasma.without "phi") d)
      let phi ← hw.get_phi_of y dx
      let age ← (M.lift (plasma.getItem "age") >>= fun a => M.lift (Ops.add a (.num dt)))
      logCall fun c => { c with full_step := c.full_step + 1 }
      pure ((y.set "phi" phi).set "age" age)) := by
  unfold HW.euler_step
  simp only [bind_assoc]
  rfl

theorem tri_euler_step {C : Ctx} {n n1 : ℕ} {same : Bool} (hw : HW) (hr : Returns same hw) {s : NS Obj} {S : NS Val}
    (dt dx : ℝ) (hk : s.keys.Nodup) (hn : ∀ m, C.holds m → n ≤ m.length)
    (h1 : ∀ m, C.holds m → (nsC n1 s S).holds m) :
    Tri C (euler_step same hw s dt dx) (hw.euler_step S dt dx) (stateC n) := by
  rw [euler_grouped]
  unfold euler_step
  have h0 : ∀ m, C.holds m → (nsC n1 (s.without "phi") (S.without "phi")).holds m := fun m c => nsC_without (h1 m c) "phi"
  refine Tri.bind (tri_gradient_2d (n := n) hw hr 0 dx hw.zonal hn h0 (fun m c => nsC_get? (h1 m c) "phi")) fun g G => ?_
  refine Tri.bind (tri_mapWith (n := n) g G (fun m c => hn m c.1) fun m c => c.2) fun d D => ?_
  refine Tri.bind (tri_zipWith_new (n := n) _ _ (fun m c => c.2) (fun m c => hn m c.1.1) fun m c => h0 m c.1.1) fun y Y => ?_
  exact tri_tail hw dt dx hk (fun m c => hn m c.1.1.1) (fun m c => h1 m c.1.1.1) fun m c => c.2

theorem rk4_grouped (hw : HW) (plasma : NS Val) (dt dx : ℝ) : hw.rk4_step plasma dt dx = (do
      let pn ← M.lift (plasma.getItem "phi")
      let g1 ← hw.gradient_2d (plasma.without "phi") (some pn) 0 dx hw.zonal
      let k1 ← M.lift (NS.mapWith Ops.mul g1 (.num dt))
      let h1 ← M.lift (NS.mapWith Ops.mul k1 (.num (1 / 2)))
      let y1 ← M.lift (NS.zipWith Ops.add (plasma.without "phi") h1)
      let p1 ← hw.get_phi_of y1 dx
      let g2 ← hw.gradient_2d y1 (some p1) (dt / 2) dx hw.zonal
      let k2 ← M.lift (NS.mapWith Ops.mul g2 (.num dt))
      let h2 ← M.lift (NS.mapWith Ops.mul k2 (.num (1 / 2)))
      let y2 ← M.lift (NS.zipWith Ops.add (plasma.without "phi") h2)
      let p2 ← hw.get_phi_of y2 dx
      let g3 ← hw.gradient_2d y2 (some p2) (dt / 2) dx hw.zonal
      let k3 ← M.lift (NS.mapWith Ops.mul g3 (.num dt))
      let y3 ← M.lift (NS.zipWith Ops.add (plasma.without "phi") k3)
      let p3 ← hw.get_phi_of y3 dx
      let g4 ← hw.gradient_2d y3 (some p3) dt dx hw.zonal
      let k4 ← M.lift (NS.mapWith Ops.mul g4 (.num dt))
      let d2 ← M.lift (NS.mapWith Ops.mul k2 (.num 2))
      let s ← M.lift (NS.zipWith Ops.add k1 d2)
      let d3 ← M.lift (NS.mapWith Ops.mul k3 (.num 2))
      let s ← M.lift (NS.zipWith Ops.add s d3)
      let s ← M.lift (NS.zipWith Ops.add s k4)
      let s ← M.lift (NS.mapWith Ops.mul s (.num (1 / 6)))
      let yk1 ← M.lift (NS.zipWith Ops.add (plasma.without "phi") s)
      let phi ← hw.get_phi_of yk1 dx
      let age ← (M.lift (plasma.getItem "age") >>= fun a => M.lift (Ops.add a (.num dt)))
      logCall fun c => { c with full_step := c.full_step + 1 }
      pure ((yk1.set "phi" phi).set "age" age)) := by
  unfold HW.rk4_step
  simp only [bind_assoc, liftM_bind]
  rfl

theorem tri_rk4_step {C : Ctx} {n n1 : ℕ} {same : Bool} (hw : HW) (hr : Returns same hw) {s : NS Obj} {S : NS Val}
    (dt dx : ℝ) (hk : s.keys.Nodup) (hn : ∀ m, C.holds m → n ≤ m.length)
    (h1 : ∀ m, C.holds m → (nsC n1 s S).holds m) :
    Tri C (rk4_step same hw s dt dx) (hw.rk4_step S dt dx) (stateC n) := by
  rw [rk4_grouped]
  unfold rk4_step
  have h0 : ∀ m, C.holds m → (nsC n1 (s.without "phi") (S.without "phi")).holds m := fun m c => nsC_without (h1 m c) "phi"
  refine Tri.bind (tri_getItem h1 "phi") fun pn PN => ?_
  refine Tri.bind (tri_gradient_2d (n := n) hw hr 0 dx hw.zonal (fun m c => hn m c.1) (fun m c => h0 m c.1) (fun m c => c.2)) fun g1 G1 => ?_
  refine Tri.bind (tri_mapWith (n := n) g1 G1 (fun m c => hn m c.1.1) fun m c => c.2) fun k1 K1 => ?_
  refine Tri.pre (D := C.and (nsC n k1 K1)) ?_ fun m c => ⟨c.1.1.1, c.2⟩
  refine Tri.bind (tri_mapWith (n := n) k1 K1 (fun m c => hn m c.1) fun m c => c.2) fun d1 D1 => ?_
  refine Tri.bind (tri_zipWith (n := n) _ _ (fun m c => c.2) (fun m c => hn m c.1.1) fun m c => h0 m c.1.1) fun y1 Y1 => ?_
  refine Tri.bind (tri_get_phi_of (n := n) hw dx (fun m c => hn m c.1.1.1) fun m c => c.2) fun p1 P1 => ?_
  refine Tri.bind (tri_gradient_2d (n := n) hw hr (dt / 2) dx hw.zonal (fun m c => hn m c.1.1.1.1) (fun m c => c.1.2) (fun m c => c.2)) fun g2 G2 => ?_
  refine Tri.bind (tri_mapWith (n := n) g2 G2 (fun m c => hn m c.1.1.1.1.1) fun m c => c.2) fun k2 K2 => ?_
  refine Tri.pre (D := (C.and (nsC n k1 K1)).and (nsC n k2 K2)) ?_ fun m c => ⟨c.1.1.1.1.1, c.2⟩
  refine Tri.bind (tri_mapWith (n := n) k2 K2 (fun m c => hn m c.1.1) fun m c => c.2) fun d2 D2 => ?_
  refine Tri.bind (tri_zipWith (n := n) _ _ (fun m c => c.2) (fun m c => hn m c.1.1.1) fun m c => h0 m c.1.1.1) fun y2 Y2 => ?_
  refine Tri.bind (tri_get_phi_of (n := n) hw dx (fun m c => hn m c.1.1.1.1) fun m c => c.2) fun p2 P2 => ?_
  refine Tri.bind (tri_gradient_2d (n := n) hw hr (dt / 2) dx hw.zonal (fun m c => hn m c.1.1.1.1.1) (fun m c => c.1.2) (fun m c => c.2)) fun g3 G3 => ?_
  refine Tri.bind (tri_mapWith (n := n) g3 G3 (fun m c => hn m c.1.1.1.1.1.1) fun m c => c.2) fun k3 K3 => ?_
  refine Tri.pre (D := ((C.and (nsC n k1 K1)).and (nsC n k2 K2)).and (nsC n k3 K3)) ?_ fun m c => ⟨c.1.1.1.1.1, c.2⟩
  refine Tri.bind (tri_zipWith (n := n) _ _ (fun m c => c.2) (fun m c => hn m c.1.1.1) fun m c => h0 m c.1.1.1) fun y3 Y3 => ?_
  refine Tri.bind (tri_get_phi_of (n := n) hw dx (fun m c => hn m c.1.1.1.1) fun m c => c.2) fun p3 P3 => ?_
  refine Tri.bind (tri_gradient_2d (n := n) hw hr dt dx hw.zonal (fun m c => hn m c.1.1.1.1.1) (fun m c => c.1.2) (fun m c => c.2)) fun g4 G4 => ?_
  refine Tri.bind (tri_mapWith (n := n) g4 G4 (fun m c => hn m c.1.1.1.1.1.1) fun m c => c.2) fun k4 K4 => ?_
  refine Tri.pre (D := (((C.and (nsC n k1 K1)).and (nsC n k2 K2)).and (nsC n k3 K3)).and (nsC n k4 K4)) ?_ fun m c => ⟨c.1.1.1.1, c.2⟩
  refine Tri.bind (tri_mapWith (n := n) k2 K2 (fun m c => hn m c.1.1.1.1) fun m c => c.1.1.2) fun d2 D2 => ?_
  refine Tri.bind (tri_zipWith (n := n) _ _ (fun m c => c.2) (fun m c => hn m c.1.1.1.1.1) fun m c => c.1.1.1.1.2) fun s1 S1 => ?_
  refine Tri.bind (tri_mapWith (n := n) k3 K3 (fun m c => hn m c.1.1.1.1.1.1) fun m c => c.1.1.1.2) fun d3 D3 => ?_
  refine Tri.bind (tri_zipWith (n := n) _ _ (fun m c => c.2) (fun m c => hn m c.1.1.1.1.1.1.1) fun m c => c.1.2) fun s2 S2 => ?_
  refine Tri.bind (tri_zipWith (n := n) _ _ (fun m c => c.1.1.1.1.2) (fun m c => hn m c.1.1.1.1.1.1.1.1) fun m c => c.2) fun s3 S3 => ?_
  refine Tri.bind (tri_mapWith (n := n) s3 S3 (fun m c => hn m c.1.1.1.1.1.1.1.1.1) fun m c => c.2) fun s4 S4 => ?_
  refine Tri.pre (D := C.and (nsC n s4 S4)) ?_ fun m c => ⟨c.1.1.1.1.1.1.1.1.1.1, c.2⟩
  refine Tri.bind (tri_zipWith_new (n := n) _ _ (fun m c => c.2) (fun m c => hn m c.1) fun m c => h0 m c.1) fun y Y => ?_
  exact tri_tail hw dt dx hk (fun m c => hn m c.1.1) (fun m c => h1 m c.1.1) fun m c => c.2

/-! ### enstrophy -/

theorem at_get_enstrophy_phi {m : Mem} {n phi : ℕ} {N P : Arr ℝ} (dx : ℝ) (hn : Is n N m.heap) (hp : Is phi P m.heap) :
    At none' (fun _ a b => a = b) m (get_enstrophy_phi n phi dx) (M.lift (Properties.get_enstrophy_phi N P dx)) := by
  unfold get_enstrophy_phi Properties.get_enstrophy_phi periodic_laplace_N
  rw [if_neg one_ne_zero]
  simp only [liftM_bind]
  have t := tri_un (n := m.heap.length) (C := (arrC 0 phi P).and (sizeC m.heap.length))
    (f := fun a => NumpyGradients.periodic_laplace_N a dx 1) (fun m c => c.1) (fun _ c => c.2) m ⟨⟨Nat.zero_le _, hp⟩, le_rfl⟩
  refine At.bind (W2 := (m.heap.length ≤ ·)) t (fun o O m1 k1 r1 => ?_) fun r hr w => ⟨w, fun f => by omega⟩
  have hn1 : Is n N m1.heap := hn.keep k1 fun f => f
  have ln := lt_of_getElem? hn
  have le : m.heap.length ≤ o := r1.1
  refine At.mono (W := (· = o)) (R := fun _ a b => a = b) ?_ (fun r e => e ▸ le) fun _ _ _ r => r
  refine At.bind (g := fun O' => M.lift (.ok N - .ok (O'.map (· - O'.mean)) : Py (Arr ℝ)) >>= fun d =>
    pure ((d.map (· ^ 2)).mean / 2)) (W2 := (· = o)) (at_get r1.2) (fun O1 O2 m2 k2 e => ?_) fun r _ w => ⟨fun f => f, w⟩
  subst e
  have ho2 : Is o O m2.heap := Is.keep r1.2 k2 fun f => f
  have hn2 := hn1.keep k2 fun f => f
  have tp : At (· = o) (fun h _ X => Is o X h) m2 (put o (O1.map (· - O1.mean))) (pure (O1.map (· - O1.mean))) := by
    refine ⟨_, rfl, ⟨by simp, fun r hr w => ?_⟩, ?_⟩
    · change (m2.heap.set o _)[r]? = _
      rw [List.getElem?_set_ne (fun f => w f.symm)]
    · change (m2.heap.set o _)[o]? = _
      rw [List.getElem?_set_self (lt_of_getElem? ho2)]
  refine At.bind (g := fun X => M.lift (.ok N - .ok X : Py (Arr ℝ)) >>= fun d => pure ((d.map (· ^ 2)).mean / 2))
    (W2 := none') tp (fun _ X m3 k3 r3 => ?_) fun r _ w => ⟨w, fun f => f⟩
  have hn3 := hn2.keep k3 (show ¬ n = o by omega)
  have tb := tri_bin (n := 0) (a := N) (b := X) (C := (arrC 0 n N).and (arrC 0 o X))
    (f := fun a b => (.ok a - .ok b : Py (Arr ℝ))) (fun m c => c.1) (fun m c => c.2) (fun _ _ => Nat.zero_le _) m3
    ⟨⟨Nat.zero_le _, hn3⟩, Nat.zero_le _, r3⟩
  refine At.bind (W2 := none') tb (fun d D m4 k4 r4 => ?_) fun r _ w => ⟨w, w⟩
  refine At.bind (g := fun D => pure ((D.map (· ^ 2)).mean / 2)) (W2 := none') (at_get r4.2)
    (fun D1 D2 m5 k5 e => ?_) fun r _ w => ⟨w, w⟩
  subst e
  exact ⟨_, rfl, .refl _ _, rfl⟩

end Verif.Memory
