import Verif.Lemmas.Memory
import Verif.Spec.Memory
import Verif.Props.HWHistory

/-!
# C132: what a step does to the arrays in memory
-/

namespace Verif.Props

open Memory Spec

/-- any sequence of steps, each starting from the state returned by the previous one, on arrays in memory -/
noncomputable def memoryHistory (same : Bool) (hw : HW) (dx : ℝ) : List Step → NS Obj → H (NS Obj)
  | [], s => pure s
  | .rk4 dt :: l, s => do
    let s ← Memory.rk4_step same hw s dt dx
    memoryHistory same hw dx l s
  | .euler dt :: l, s => do
    let s ← Memory.euler_step same hw s dt dx
    memoryHistory same hw dx l s

private theorem nsC_of_shows {heap : List (Arr ℝ)} {s : NS Obj} {S : NS Val} (h : Shows heap s S) :
    (nsC 0 s S).holds heap := by
  induction s generalizing S with
  | nil =>
    cases S with
    | nil => exact trivial
    | cons q S => cases h
  | cons p s ih =>
    cases S with
    | nil => cases h
    | cons q S =>
      unfold Shows at h
      rw [List.map_cons, List.map_cons] at h
      injection h with h h'
      injection h with h1 h2
      refine ⟨⟨h1, ?_⟩, ih h'⟩
      obtain ⟨k, u⟩ := p
      obtain ⟨k', v⟩ := q
      cases u with
      | ref r =>
        change heap[r]?.map Val.arr = some v at h2
        obtain ⟨a, e, rfl⟩ := Option.map_eq_some_iff.mp h2
        exact ⟨Nat.zero_le _, e⟩
      | num x =>
        change some (Val.num x) = some v at h2
        injection h2 with h2
        subst h2
        exact rfl

private theorem shows_of_nsC {n : ℕ} {heap : List (Arr ℝ)} {s : NS Obj} {S : NS Val} (h : (nsC n s S).holds heap) :
    Shows heap s S := by
  induction s generalizing S with
  | nil =>
    cases S with
    | nil => exact rfl
    | cons q S => exact h.elim
  | cons p s ih =>
    cases S with
    | nil => exact h.elim
    | cons q S =>
      obtain ⟨k, u⟩ := p
      obtain ⟨k', v⟩ := q
      unfold Shows
      rw [List.map_cons, List.map_cons]
      refine List.cons_eq_cons.mpr ⟨Prod.ext h.1.1 ?_, ih h.2⟩
      cases u with
      | ref r =>
        cases v with
        | arr a => change heap[r]?.map Val.arr = _; rw [h.1.2.2]; rfl
        | num x => exact h.1.2.elim
      | num x =>
        cases v with
        | arr a => exact h.1.2.elim
        | num y => exact congrArg (fun z => some (Val.num z)) h.1.2

private theorem tri_history {same : Bool} (hw : HW) (hr : Returns same hw) (dx : ℝ) (l : List Step) {n : ℕ} {C : Ctx}
    {s : NS Obj} {S : NS Val} (hn : ∀ m, C.holds m → n ≤ m.length) (hs : ∀ m, C.holds m → (stateC n s S).holds m) :
    Tri C (memoryHistory same hw dx l s) (history hw dx l S) (stateC n) := by
  intro m c
  have hk := (hs _ c).2.2
  refine (?_ : Tri C _ _ _) m c
  clear c m
  induction l generalizing s S C with
  | nil => exact tri_pure hs
  | cons a l ih =>
    cases a with
    | rk4 dt =>
      refine Tri.bind (tri_rk4_step hw hr dt dx hk hn fun m c => (hs m c).1) fun t T => ?_
      intro m c
      exact ih (C := C.and (stateC n t T)) (fun m c => hn m c.1) (fun m c => c.2) c.2.2.2 m c
    | euler dt =>
      refine Tri.bind (tri_euler_step hw hr dt dx hk hn fun m c => (hs m c).1) fun t T => ?_
      intro m c
      exact ih (C := C.and (stateC n t T)) (fun m c => hn m c.1) (fun m c => c.2) c.2.2.2 m c

private theorem tri_history_new {same : Bool} (hw : HW) (hr : Returns same hw) (dx : ℝ) {l : List Step} (hl : l ≠ [])
    {n : ℕ} {C : Ctx} {s : NS Obj} {S : NS Val} (hk : s.keys.Nodup) (hn : ∀ m, C.holds m → n ≤ m.length)
    (hs : ∀ m, C.holds m → (nsC 0 s S).holds m) :
    Tri C (memoryHistory same hw dx l s) (history hw dx l S) (stateC n) := by
  cases l with
  | nil => exact absurd rfl hl
  | cons a l =>
    cases a with
    | rk4 dt =>
      exact Tri.bind (tri_rk4_step hw hr dt dx hk hn hs) fun t T =>
        tri_history hw hr dx l (fun m c => hn m c.1) (fun m c => c.2)
    | euler dt =>
      exact Tri.bind (tri_euler_step hw hr dt dx hk hn hs) fun t T =>
        tri_history hw hr dx l (fun m c => hn m c.1) (fun m c => c.2)

/-- the two ways in which the schemes of the package treat `N = 0`: the NumPy one returns its argument, the
Numba one a new array -/
def Fits (same : Bool) (hw : HW) : Prop :=
  (same = true ∧ hw.backend = numpyBackend) ∨ (same = false ∧ hw.backend = numbaBackend)

private theorem Fits.returns {same : Bool} {hw : HW} (h : Fits same hw) : Returns same hw := by
  intro e a dx
  rcases h with ⟨-, h⟩ | ⟨h, -⟩
  · rw [h]; rfl
  · rw [h] at e; cases e

/-- **C132**: with the in-place `+=` of the code and shared references, any sequence of (one or more) steps
on a dictionary of arrays computes what the model without memory computes (the subject of the other
properties), with the same counters or the same exception; every array that existed before is unchanged;
the arrays of the returned state are new, and no two entries share one. -/
theorem C132_history (same : Bool) (hw : HW) (hf : Fits same hw) (dx : ℝ) (l : List Step) (hl : l ≠ []) (m : Mem)
    (s : NS Obj) (S : NS Val) (hk : s.keys.Nodup) (hs : Shows m.heap s S) :
    match memoryHistory same hw dx l s m with
    | .ok (s', m') => ∃ S', history hw dx l S m.calls = .ok (S', m'.calls) ∧ Shows m'.heap s' S' ∧
        m.heap.length ≤ m'.heap.length ∧ (∀ r < m.heap.length, m'.heap[r]? = m.heap[r]?) ∧
        (∀ r ∈ arrays s', m.heap.length ≤ r ∧ r < m'.heap.length) ∧ (arrays s').Nodup
    | .error e => history hw dx l S m.calls = .error e := by
  have h := tri_history_new (C := (nsC 0 s S).and (sizeC m.heap.length)) hw hf.returns dx hl hk (fun _ c => c.2)
    (fun _ c => c.1) m ⟨nsC_of_shows hs, le_rfl⟩
  unfold At at h
  cases hr : memoryHistory same hw dx l s m with
  | error e => rw [hr] at h; exact h
  | ok r =>
    rw [hr] at h
    obtain ⟨S', e, kp, st⟩ := h
    exact ⟨S', e, shows_of_nsC st.1, kp.1, fun r hr => kp.2 r hr fun f => f, nsC_refs st.1, st.2.1⟩

/-- **C132**: in particular, a state shows the same values after later steps, whether they started from it or
not. -/
theorem C132_kept (same : Bool) (hw : HW) (hf : Fits same hw) (dx : ℝ) (l : List Step) (m m' : Mem)
    (s s' t : NS Obj) (S T : NS Val) (hk : s.keys.Nodup) (hs : Shows m.heap s S) (ht : Shows m.heap t T)
    (h : memoryHistory same hw dx l s m = .ok (s', m')) : Shows m'.heap t T := by
  cases l with
  | nil =>
    injection h with h
    injection h with _ h
    exact h ▸ ht
  | cons a l =>
    have := C132_history same hw hf dx (a :: l) (by simp) m s S hk hs
    rw [h] at this
    obtain ⟨-, -, -, hlen, hkeep, -⟩ := this
    refine shows_of_nsC (n := 0) ((nsC 0 t T).stable ⟨hlen, fun r hr _ => hkeep r hr⟩ (nsC_of_shows ht))

/-- **C132**: `get_enstrophy_phi`, which subtracts a mean in place, computes what the model without memory
computes, and leaves every array that existed before unchanged. -/
theorem C132_enstrophy (m : Mem) (n phi : ℕ) (N P : Arr ℝ) (dx : ℝ) (hn : m.heap[n]? = some N) (hp : m.heap[phi]? = some P) :
    match Memory.get_enstrophy_phi n phi dx m with
    | .ok (x, m') => Properties.get_enstrophy_phi N P dx = .ok x ∧ m'.calls = m.calls ∧
        ∀ r < m.heap.length, m'.heap[r]? = m.heap[r]?
    | .error e => Properties.get_enstrophy_phi N P dx = .error e := by
  have h := at_get_enstrophy_phi (m := m) (n := n) (phi := phi) dx hn hp
  unfold At M.lift at h
  cases hr : Memory.get_enstrophy_phi n phi dx m with
  | error e =>
    rw [hr] at h
    cases hx : Properties.get_enstrophy_phi N P dx with
    | error e' => rw [hx] at h; injection h with h; exact congrArg _ h
    | ok x => rw [hx] at h; cases h
  | ok r =>
    rw [hr] at h
    obtain ⟨b, e, kp, rfl⟩ := h
    cases hx : Properties.get_enstrophy_phi N P dx with
    | error e' => rw [hx] at e; cases e
    | ok x =>
      rw [hx] at e
      injection e with e
      injection e with e1 e2
      exact ⟨congrArg _ e1, e2.symm, fun r hr => kp.2 r hr fun f => f⟩

/-- **C132**, a limit: `hw.diffuse(arr, dx, N=0)` returns `arr` itself with the NumPy functions, so that a
caller who changes the result in place changes the argument; with the Numba functions it returns a new array. -/
theorem C132_diffuse_same_object (hw : HW) (m : Mem) (r : ℕ) (dx : ℝ) :
    (Fits true hw → ∃ m', Memory.diffuse true hw r dx 0 m = .ok (r, m')) ∧
    (Fits false hw → ∀ r' m', Memory.diffuse false hw r dx 0 m = .ok (r', m') → r' = m.heap.length) := by
  refine ⟨fun _ => ⟨_, rfl⟩, fun _ r' m' h => ?_⟩
  unfold Memory.diffuse Memory.diffuse_N at h
  rw [if_neg (by simp)] at h
  have hu : un (fun a => hw.backend.diffuse_N a dx 0) r m = .ok (r', { m' with calls := m.calls }) := by
    change (un (fun a => hw.backend.diffuse_N a dx 0) r m >>= fun d => Except.ok (d.1,
      ({ d.2 with calls := { d.2.calls with diffuse := d.2.calls.diffuse + 1 } } : Mem))) = _ at h
    have hc : ∀ d, un (fun a => hw.backend.diffuse_N a dx 0) r m = .ok d → d.2.calls = m.calls := fun d hd => by
      change (Memory.get r m >>= fun a => (H.lift (hw.backend.diffuse_N a.1 dx 0) a.2 >>= fun b => alloc b.1 b.2)) = _ at hd
      unfold Memory.get at hd
      cases hx : m.heap[r]? with
      | none => rw [hx] at hd; cases hd
      | some a =>
        rw [hx] at hd
        change (H.lift (hw.backend.diffuse_N a dx 0) m >>= fun b => alloc b.1 b.2) = _ at hd
        unfold H.lift at hd
        cases hy : hw.backend.diffuse_N a dx 0 with
        | error e => rw [hy] at hd; cases hd
        | ok b => rw [hy] at hd; injection hd with hd; rw [← hd]
    cases hd : un (fun a => hw.backend.diffuse_N a dx 0) r m with
    | error e => rw [hd] at h; cases h
    | ok d =>
      rw [hd] at h
      injection h with h
      injection h with h1 h2
      rw [← h1, ← h2, ← hc d hd]
  change (Memory.get r m >>= fun a => (H.lift (hw.backend.diffuse_N a.1 dx 0) a.2 >>= fun b => alloc b.1 b.2)) = _ at hu
  unfold Memory.get at hu
  cases hx : m.heap[r]? with
  | none => rw [hx] at hu; cases hu
  | some a =>
    rw [hx] at hu
    change (H.lift (hw.backend.diffuse_N a dx 0) m >>= fun b => alloc b.1 b.2) = _ at hu
    unfold H.lift at hu
    cases hy : hw.backend.diffuse_N a dx 0 with
    | error e => rw [hy] at hu; cases hu
    | ok b =>
      rw [hy] at hu
      injection hu with hu
      injection hu with hu _
      exact hu.symm

/-- a 4x5 state in memory: the arrays -/
noncomputable def demoHeap : List (Arr ℝ) := [arrOf demoState "density", arrOf demoState "omega", arrOf demoState "phi"]

/-- a 4x5 state in memory: the dictionary -/
def demoObjs : NS Obj := [("density", .ref 0), ("omega", .ref 1), ("phi", .ref 2), ("age", .num 3), ("dE", .num 0)]

theorem demo_shows : Shows demoHeap demoObjs demoState := rfl

/-- two steps of a 4x5 simulation (without hyperdiffusion order, so that `diffuse` returns its argument): they
return, and the first three arrays are what they were -/
theorem demo_memory : ∃ s' m', memoryHistory true (HW.init numpyBackend 1 0 1 (1 / 10) 1) 1 [.rk4 (1 / 10), .euler (1 / 10)]
    demoObjs ⟨demoHeap, {}⟩ = .ok (s', m') ∧ Shows m'.heap demoObjs demoState := by
  obtain ⟨s', c', h1, -⟩ := C36_counters (hw := HW.init numpyBackend 1 0 1 (1 / 10) 1) (dx := 1) (h := 4) (w := 5)
    (by decide) (by decide) (.inl rfl) [.rk4 (1 / 10), .euler (1 / 10)] demoState demoState_isState {}
  have h := C132_history true (HW.init numpyBackend 1 0 1 (1 / 10) 1) (.inl ⟨rfl, rfl⟩) 1 [.rk4 (1 / 10), .euler (1 / 10)]
    (by simp) ⟨demoHeap, {}⟩ demoObjs demoState (by decide) demo_shows
  cases hr : memoryHistory true (HW.init numpyBackend 1 0 1 (1 / 10) 1) 1 [.rk4 (1 / 10), .euler (1 / 10)]
      demoObjs ⟨demoHeap, {}⟩ with
  | error e =>
    rw [hr] at h
    exact nomatch h.symm.trans h1
  | ok r =>
    exact ⟨r.1, r.2, rfl, C132_kept true _ (.inl ⟨rfl, rfl⟩) 1 _ _ r.2 demoObjs r.1 demoObjs demoState demoState (by decide)
      demo_shows demo_shows hr⟩

example := C132_enstrophy ⟨demoHeap, {}⟩ 0 2 _ _ 1 rfl rfl

example := (C132_diffuse_same_object (HW.init numpyBackend 1 0 1 (1 / 10) 1) ⟨demoHeap, {}⟩ 2 1).1 (.inl ⟨rfl, rfl⟩)

end Verif.Props
