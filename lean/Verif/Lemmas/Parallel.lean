import Verif.Model.Parallel
import Mathlib.Algebra.BigOperators.Fin
import Mathlib.Algebra.BigOperators.Group.Finset.Piecewise

/-!
# Loops without data races have one result

Every execution of a loop whose iterations write different cells (or equal values) and read no cell that is written ends in the
same memory; no execution gets stuck or runs forever.
-/

namespace Verif.Par

variable {α ι : Type}

/-- the cells read by the rest of an iteration when memory stays `m` -/
def Body.reads (m : Loc → α) : Body α → List Loc
  | .done => []
  | .rd x k => x :: (k (m x)).reads m
  | .wr _ _ k => k.reads m

/-- the writes of the rest of an iteration when memory stays `m` -/
def Body.writes (m : Loc → α) : Body α → List (Loc × α)
  | .done => []
  | .rd x k => (k (m x)).writes m
  | .wr x v k => (x, v) :: k.writes m

/-- the number of its operations -/
def Body.len (m : Loc → α) : Body α → ℕ
  | .done => 0
  | .rd x k => (k (m x)).len m + 1
  | .wr _ _ k => k.len m + 1

/-- no data race: `fin` tells which cells are written by the iterations `its`, and with what -/
structure RaceFree (body : ι → Body α) (its : List ι) (m : Loc → α) (fin : Loc → Option α) : Prop where
  reads : ∀ i ∈ its, ∀ x ∈ (body i).reads m, fin x = none
  writes : ∀ i ∈ its, ∀ y ∈ (body i).writes m, fin y.1 = some y.2
  covered : ∀ x v, fin x = some v → ∃ i ∈ its, (x, v) ∈ (body i).writes m

/-- what holds during every execution -/
structure Inv {p : ℕ} (body : ι → Body α) (its : List ι) (m : Loc → α) (fin : Loc → Option α) (c : Config α ι p) : Prop where
  mem : ∀ x, c.mem x = m x ∨ fin x = some (c.mem x)
  todo : ∀ t, ∀ i ∈ (c.threads t).todo, i ∈ its
  reads : ∀ t, ∀ x ∈ (c.threads t).cur.reads m, fin x = none
  writes : ∀ t, ∀ y ∈ (c.threads t).cur.writes m, fin y.1 = some y.2
  covered : ∀ x v, fin x = some v → c.mem x = v ∨ (∃ t, (x, v) ∈ (c.threads t).cur.writes m) ∨
    ∃ t, ∃ i ∈ (c.threads t).todo, (x, v) ∈ (body i).writes m

/-- operations left -/
def Config.left {p : ℕ} (body : ι → Body α) (m : Loc → α) (c : Config α ι p) : ℕ :=
  ∑ t, ((c.threads t).cur.len m + ((c.threads t).todo.map fun i => (body i).len m + 1).sum)

variable {body : ι → Body α} {its : List ι} {m : Loc → α} {fin : Loc → Option α} {p : ℕ}

theorem left_update (c : Config α ι p) (m' : Loc → α) (t : Fin p) (th : Thread α ι)
    (e : (c.threads t).cur.len m + ((c.threads t).todo.map fun i => (body i).len m + 1).sum
      = th.cur.len m + (th.todo.map fun i => (body i).len m + 1).sum + 1) :
    c.left body m = Config.left body m ⟨m', Function.update c.threads t th⟩ + 1 := by
  unfold Config.left
  rw [← Finset.add_sum_erase _ _ (Finset.mem_univ t), ← Finset.add_sum_erase (a := t) _ _ (Finset.mem_univ t)]
  have e2 : ∀ s ∈ Finset.univ.erase t, Function.update c.threads t th s = c.threads s := fun s hs =>
    Function.update_of_ne (Finset.ne_of_mem_erase hs) _ _
  rw [Finset.sum_congr rfl fun s hs => by rw [← e2 s hs], e]
  simp only [Function.update_self]
  omega

theorem inv_step (hr : RaceFree body its m fin) {c c' : Config α ι p} (hi : Inv body its m fin c)
    (h : Step body c c') : Inv body its m fin c' ∧ c.left body m = c'.left body m + 1 := by
  cases h with
  | fetch t i l e =>
    have hit : i ∈ its := hi.todo t i (by rw [e]; exact List.mem_cons_self)
    refine ⟨⟨hi.mem, ?_, ?_, ?_, ?_⟩, left_update _ _ _ _ ?_⟩
    · intro s j hj
      by_cases h : s = t
      · subst h
        simp only [Function.update_self] at hj
        exact hi.todo s j (by rw [e]; exact List.mem_cons_of_mem _ hj)
      · simp only [Function.update_of_ne h] at hj; exact hi.todo s j hj
    · intro s x hx
      by_cases h : s = t
      · subst h
        simp only [Function.update_self] at hx
        exact hr.reads i hit x hx
      · simp only [Function.update_of_ne h] at hx; exact hi.reads s x hx
    · intro s x hx
      by_cases h : s = t
      · subst h
        simp only [Function.update_self] at hx
        exact hr.writes i hit x hx
      · simp only [Function.update_of_ne h] at hx; exact hi.writes s x hx
    · intro x v hx
      rcases hi.covered x v hx with h1 | ⟨s, h1⟩ | ⟨s, j, hj, h1⟩
      · exact .inl h1
      · refine .inr (.inl ⟨s, ?_⟩)
        have h : s ≠ t := by rintro rfl; rw [e] at h1; cases h1
        simp only [Function.update_of_ne h]; exact h1
      · by_cases h : s = t
        · subst h
          rw [e] at hj
          rcases List.mem_cons.1 hj with rfl | hj
          · exact .inr (.inl ⟨s, by simp only [Function.update_self]; exact h1⟩)
          · exact .inr (.inr ⟨s, j, by simp only [Function.update_self]; exact hj, h1⟩)
        · exact .inr (.inr ⟨s, j, by simp only [Function.update_of_ne h]; exact hj, h1⟩)
    · rw [e]
      simp only [Body.len, List.map_cons, List.sum_cons]
      omega
  | rd t x k l e =>
    have hx : c.mem x = m x := by
      have h0 : fin x = none := hi.reads t x (by rw [e]; exact List.mem_cons_self)
      rcases hi.mem x with h | h
      · exact h
      · rw [h0] at h; cases h
    have er : (c.threads t).cur.reads m = x :: (k (m x)).reads m := by rw [e]; rfl
    have ew : (c.threads t).cur.writes m = (k (m x)).writes m := by rw [e]; rfl
    have et : (c.threads t).todo = l := by rw [e]
    refine ⟨⟨hi.mem, ?_, ?_, ?_, ?_⟩, left_update _ _ _ _ ?_⟩
    · intro s j hj
      by_cases h : s = t
      · subst h
        simp only [Function.update_self] at hj
        exact hi.todo s j (by rw [e]; exact hj)
      · simp only [Function.update_of_ne h] at hj; exact hi.todo s j hj
    · intro s y hy
      by_cases h : s = t
      · subst h
        simp only [Function.update_self] at hy
        rw [hx] at hy
        exact hi.reads s y (by rw [er]; exact List.mem_cons_of_mem _ hy)
      · simp only [Function.update_of_ne h] at hy; exact hi.reads s y hy
    · intro s y hy
      by_cases h : s = t
      · subst h
        simp only [Function.update_self] at hy
        rw [hx] at hy
        exact hi.writes s y (by rw [ew]; exact hy)
      · simp only [Function.update_of_ne h] at hy; exact hi.writes s y hy
    · intro y v hy
      rcases hi.covered y v hy with h1 | ⟨s, h1⟩ | ⟨s, j, hj, h1⟩
      · exact .inl h1
      · refine .inr (.inl ⟨s, ?_⟩)
        by_cases h : s = t
        · subst h
          simp only [Function.update_self, hx]
          rw [ew] at h1; exact h1
        · simp only [Function.update_of_ne h]; exact h1
      · refine .inr (.inr ⟨s, j, ?_, h1⟩)
        by_cases h : s = t
        · subst h
          simp only [Function.update_self]
          rw [et] at hj; exact hj
        · simp only [Function.update_of_ne h]; exact hj
    · rw [e, hx]
      simp only [Body.len]
      omega
  | wr t x v k l e =>
    have hx : fin x = some v := hi.writes t (x, v) (by rw [e]; exact List.mem_cons_self)
    have er : (c.threads t).cur.reads m = k.reads m := by rw [e]; rfl
    have ew : (c.threads t).cur.writes m = (x, v) :: k.writes m := by rw [e]; rfl
    have et : (c.threads t).todo = l := by rw [e]
    refine ⟨⟨?_, ?_, ?_, ?_, ?_⟩, left_update _ _ _ _ ?_⟩
    · intro y
      by_cases h : y = x
      · subst h
        right
        simp only [Function.update_self]; exact hx
      · simp only [Function.update_of_ne h]; exact hi.mem y
    · intro s j hj
      by_cases h : s = t
      · subst h
        simp only [Function.update_self] at hj
        exact hi.todo s j (by rw [e]; exact hj)
      · simp only [Function.update_of_ne h] at hj; exact hi.todo s j hj
    · intro s y hy
      by_cases h : s = t
      · subst h
        simp only [Function.update_self] at hy
        exact hi.reads s y (by rw [er]; exact hy)
      · simp only [Function.update_of_ne h] at hy; exact hi.reads s y hy
    · intro s y hy
      by_cases h : s = t
      · subst h
        simp only [Function.update_self] at hy
        exact hi.writes s y (by rw [ew]; exact List.mem_cons_of_mem _ hy)
      · simp only [Function.update_of_ne h] at hy; exact hi.writes s y hy
    · intro y u hy
      by_cases hyx : y = x
      · subst hyx
        left
        rw [hx] at hy
        simp only [Function.update_self]; exact Option.some.inj hy
      rcases hi.covered y u hy with h1 | ⟨s, h1⟩ | ⟨s, j, hj, h1⟩
      · exact .inl (by simp only [Function.update_of_ne hyx]; exact h1)
      · refine .inr (.inl ⟨s, ?_⟩)
        by_cases h : s = t
        · subst h
          simp only [Function.update_self]
          rw [ew] at h1
          rcases List.mem_cons.1 h1 with h1 | h1
          · exact absurd (congrArg Prod.fst h1) hyx
          · exact h1
        · simp only [Function.update_of_ne h]; exact h1
      · refine .inr (.inr ⟨s, j, ?_, h1⟩)
        by_cases h : s = t
        · subst h
          simp only [Function.update_self]
          rw [et] at hj; exact hj
        · simp only [Function.update_of_ne h]; exact hj
    · rw [e]
      simp only [Body.len]
      omega

theorem inv_start (hr : RaceFree body its m fin) (chunk : Fin p → List ι) (hs : (List.ofFn chunk).flatten.Perm its) :
    Inv body its m fin (start m chunk) where
  mem x := .inl rfl
  todo t i hi := hs.mem_iff.1 (List.mem_flatten.2 ⟨chunk t, (List.mem_ofFn' _ _).2 ⟨t, rfl⟩, hi⟩)
  reads t x hx := by cases hx
  writes t x hx := by cases hx
  covered x v hx := by
    obtain ⟨i, hi, h⟩ := hr.covered x v hx
    obtain ⟨l, hl, hil⟩ := List.mem_flatten.1 (hs.mem_iff.2 hi)
    obtain ⟨t, rfl⟩ := (List.mem_ofFn' _ _).1 hl
    exact .inr (.inr ⟨t, i, hil, h⟩)

theorem inv_reach (hr : RaceFree body its m fin) {c c' : Config α ι p} (hi : Inv body its m fin c)
    (h : Relation.ReflTransGen (Step body) c c') : Inv body its m fin c' := by
  induction h with
  | refl => exact hi
  | tail _ h ih => exact (inv_step hr ih h).1

/-- a configuration that is not finished can go on -/
theorem progress (c : Config α ι p) (h : ¬c.Finished) : ∃ c', Step body c c' := by
  unfold Config.Finished at h
  push Not at h
  obtain ⟨t, ht⟩ := h
  match e : c.threads t with
  | ⟨.done, []⟩ => exact absurd e ht
  | ⟨.done, i :: l⟩ => exact ⟨_, .fetch c t i l e⟩
  | ⟨.rd x k, l⟩ => exact ⟨_, .rd c t x k l e⟩
  | ⟨.wr x v k, l⟩ => exact ⟨_, .wr c t x v k l e⟩

/-- no infinite execution -/
theorem acc_of_inv (hr : RaceFree body its m fin) {c : Config α ι p} (hi : Inv body its m fin c) :
    Acc (fun a b => Step body b a) c := by
  induction hn : c.left body m using Nat.strong_induction_on generalizing c with
  | _ n ih =>
    refine ⟨_, fun c' h => ?_⟩
    obtain ⟨h1, h2⟩ := inv_step hr hi h
    exact ih _ (by omega) h1 rfl

theorem final_mem {c : Config α ι p} (hi : Inv body its m fin c) (hf : c.Finished) :
    c.mem = fun x => (fin x).getD (m x) := by
  funext x
  match e : fin x with
  | none =>
    rcases hi.mem x with h | h
    · exact h
    · rw [e] at h; cases h
  | some v =>
    rcases hi.covered x v e with h | ⟨t, h⟩ | ⟨t, i, hj, h⟩
    · exact h
    · rw [hf t] at h; cases h
    · rw [hf t] at hj; cases hj

/-- the outcome of a loop -/
theorem runs_iff (lp : Loop α) {m : Loc → α} {fin : Loc → Option α} (hr : RaceFree lp.body lp.cells m fin)
    (m' : Loc → α) : lp.Runs m m' ↔ m' = fun x => (fin x).getD (m x) := by
  constructor
  · rintro ⟨p, chunk, c, hs, h, hf, rfl⟩
    exact final_mem (inv_reach hr (inv_start hr chunk hs) h) hf
  · rintro rfl
    have hs : lp.Split (p := 1) fun _ => lp.cells := by simp [Loop.Split]
    have key : ∀ c : Config α (ℕ × ℕ) 1, Acc (fun a b => Step lp.body b a) c →
        ∃ c', Relation.ReflTransGen (Step lp.body) c c' ∧ c'.Finished := by
      intro c ha
      induction ha with
      | _ c _ ih =>
        by_cases hf : c.Finished
        · exact ⟨c, .refl, hf⟩
        · obtain ⟨c', hc⟩ := progress (body := lp.body) c hf
          obtain ⟨d, h1, h2⟩ := ih c' hc
          exact ⟨d, .head hc h1, h2⟩
    have hi := inv_start hr (fun _ : Fin 1 => lp.cells) hs
    obtain ⟨c, h1, h2⟩ := key _ (acc_of_inv hr hi)
    exact ⟨1, _, c, hs, h1, h2, final_mem (inv_reach hr hi h1) h2⟩

/-! ### assignments -/

/-- the cells an expression reads -/
def Expr.locs : Expr α → List Loc
  | .cell x => [x]
  | .lit _ => []
  | .un _ a => a.locs
  | .op _ a b => a.locs ++ b.locs

theorem writes_run (m : Loc → α) (e : Expr α) (k : α → Body α) :
    (e.run k).writes m = (k (e.eval m)).writes m := by
  induction e generalizing k with
  | cell x => rfl
  | lit a => rfl
  | un f a ih => exact ih _
  | op f a b iha ihb => exact (iha _).trans (ihb _)

theorem reads_run (m : Loc → α) (e : Expr α) (k : α → Body α) :
    (e.run k).reads m = e.locs ++ (k (e.eval m)).reads m := by
  induction e generalizing k with
  | cell x => rfl
  | lit a => rfl
  | un f a ih => exact ih _
  | op f a b iha ihb =>
    change (a.run _).reads m = _
    rw [iha, ihb]
    simp [Expr.locs, Expr.eval]

/-- memory after an assignment to all `cells` of the array `out` -/
def assigned (out : String) (cells : List (ℕ × ℕ)) (e : ℕ × ℕ → Expr α) (m : Loc → α) (x : Loc) : α :=
  if x.arr = out ∧ (x.i, x.j) ∈ cells then (e (x.i, x.j)).eval m else m x

/-- which cells an assignment writes, and with what -/
def assignFin (out : String) (cells : List (ℕ × ℕ)) (e : ℕ × ℕ → Expr α) (m : Loc → α) (x : Loc) : Option α :=
  if x.arr = out ∧ (x.i, x.j) ∈ cells then some ((e (x.i, x.j)).eval m) else none

theorem raceFree_assign {out : String} {cells : List (ℕ × ℕ)} {e : ℕ × ℕ → Expr α} (m : Loc → α)
    (hl : ∀ c ∈ cells, ∀ x ∈ (e c).locs, x.arr ≠ out) :
    RaceFree (assign out cells e).body (assign out cells e).cells m (assignFin out cells e m) where
  reads c hc x hx := by
    have hc' : c ∈ cells := hc
    have hx' : x ∈ ((e c).run fun v => .wr ⟨out, c.1, c.2⟩ v .done).reads m := hx
    rw [reads_run] at hx'
    simp only [Body.reads, List.append_nil] at hx'
    unfold assignFin
    rw [if_neg fun h => hl c hc' x hx' h.1]
  writes c hc y hy := by
    have hc' : c ∈ cells := hc
    have hy' : y ∈ ((e c).run fun v => .wr ⟨out, c.1, c.2⟩ v .done).writes m := hy
    rw [writes_run] at hy'
    simp only [Body.writes, List.mem_singleton] at hy'
    subst hy'
    unfold assignFin
    rw [if_pos ⟨rfl, hc'⟩]
  covered x v hx := by
    unfold assignFin at hx
    split at hx
    · next h =>
      refine ⟨(x.i, x.j), h.2, ?_⟩
      change (x, v) ∈ ((e (x.i, x.j)).run fun v => .wr ⟨out, x.i, x.j⟩ v .done).writes m
      rw [writes_run]
      simp only [Body.writes, List.mem_singleton]
      obtain ⟨h1, -⟩ := h
      cases x
      subst h1
      rw [Option.some.inj hx]
    · cases hx

theorem runs_assign {out : String} {cells : List (ℕ × ℕ)} {e : ℕ × ℕ → Expr α} (m : Loc → α)
    (hl : ∀ c ∈ cells, ∀ x ∈ (e c).locs, x.arr ≠ out) (m' : Loc → α) :
    (assign out cells e).Runs m m' ↔ m' = assigned out cells e m := by
  rw [runs_iff _ (raceFree_assign m hl)]
  have : (fun x => (assignFin out cells e m x).getD (m x)) = assigned out cells e m := by
    funext x
    unfold assignFin assigned
    split <;> rfl
  rw [this]

section
variable (m : Loc → α) (a b : Expr α)

theorem locs_add [Add α] : (a + b).locs = a.locs ++ b.locs := rfl
theorem locs_sub [Sub α] : (a - b).locs = a.locs ++ b.locs := rfl
theorem locs_mul [Mul α] : (a * b).locs = a.locs ++ b.locs := rfl
theorem locs_div [Div α] : (a / b).locs = a.locs ++ b.locs := rfl
theorem eval_add [Add α] : (a + b).eval m = a.eval m + b.eval m := rfl
theorem eval_sub [Sub α] : (a - b).eval m = a.eval m - b.eval m := rfl
theorem eval_mul [Mul α] : (a * b).eval m = a.eval m * b.eval m := rfl
theorem eval_div [Div α] : (a / b).eval m = a.eval m / b.eval m := rfl

end

theorem mem_grid {h w i j : ℕ} : (i, j) ∈ grid h w ↔ i < h ∧ j < w := by
  simp [grid]

end Verif.Par
