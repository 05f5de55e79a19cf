import Verif.Lemmas.Parallel
import Verif.Lemmas.StencilField
import Verif.Model.Gradients
import Verif.Model.Poisson

/-!
# C113: results of the parallel Numba kernels do not depend on the schedule

The Laplacian and the Arakawa bracket of the Numba backend are compiled with `parallel=True`.  However the iterations are split
among threads and however the threads' reads and writes interleave, a call ends, and it ends with the array the sequential
definition gives.
-/

set_option linter.unusedSectionVars false

namespace Verif.Props

open Par Arr

/-- the array `a` is stored in shared memory under the name `name` -/
def Stores {α : Type} [Inhabited α] (m : Loc → α) (name : String) (a : Arr α) : Prop :=
  ∀ i j, i < a.h → j < a.w → m ⟨name, i, j⟩ = a.at' i j

/-- no execution of the loop from memory `m` goes on forever, and none stops before all threads have finished, whatever the
number of threads and the split of the iterations -/
def LoopEnds {α : Type} (lp : Loop α) (m : Loc → α) : Prop :=
  ∀ (p : ℕ) (chunk : Fin p → List (ℕ × ℕ)), lp.Split chunk →
    Acc (fun c' c => Step lp.body c c') (start m chunk) ∧
    ∀ c, Relation.ReflTransGen (Step lp.body) (start m chunk) c → c.Finished ∨ ∃ c', Step lp.body c c'

/-- the same for loops one after the other, from every memory the earlier loops can leave -/
def Ends {α : Type} : List (Loop α) → (Loc → α) → Prop
  | [], _ => True
  | lp :: l, m => LoopEnds lp m ∧ ∀ m', lp.Runs m m' → Ends l m'

/-- the threads always finish, some outcome is possible, and every outcome satisfies `Q` -/
def Always {α : Type} (prog : List (Loop α)) (m : Loc → α) (Q : (Loc → α) → Prop) : Prop :=
  Ends prog m ∧ (∃ m', Runs prog m m') ∧ ∀ m', Runs prog m m' → Q m'

theorem loopEnds_assign {α : Type} {out : String} {cells : List (ℕ × ℕ)} {e : ℕ × ℕ → Expr α} (m : Loc → α)
    (hl : ∀ c ∈ cells, ∀ x ∈ (e c).locs, x.arr ≠ out) : LoopEnds (assign out cells e) m := by
  intro p chunk hs
  have hr := raceFree_assign m hl
  have hi := inv_start hr chunk hs
  refine ⟨acc_of_inv hr hi, fun c _ => ?_⟩
  by_cases hf : c.Finished
  · exact .inl hf
  · exact .inr (progress c hf)

theorem always_nil {α : Type} {m : Loc → α} {Q : (Loc → α) → Prop} (h : Q m) : Always [] m Q :=
  ⟨trivial, ⟨m, rfl⟩, fun _ e => by rw [show _ = m from e]; exact h⟩

theorem always_assign {α : Type} {out : String} {cells : List (ℕ × ℕ)} {e : ℕ × ℕ → Expr α} {m : Loc → α}
    {l : List (Loop α)} {Q : (Loc → α) → Prop} (hl : ∀ c ∈ cells, ∀ x ∈ (e c).locs, x.arr ≠ out)
    (h : Always l (assigned out cells e m) Q) : Always (assign out cells e :: l) m Q := by
  obtain ⟨h1, ⟨m', h2⟩, h3⟩ := h
  refine ⟨⟨loopEnds_assign m hl, fun m₁ hm => ?_⟩, ⟨m', _, (runs_assign m hl _).2 rfl, h2⟩, ?_⟩
  · rw [(runs_assign m hl _).1 hm]; exact h1
  · rintro m'' ⟨m₁, hm, hr⟩
    rw [(runs_assign m hl _).1 hm] at hr
    exact h3 _ hr

section
variable {α : Type} [Inhabited α] [Add α] [Sub α] [Mul α] [Div α] [NatCast α] [Pow α ℕ]

/-- The parallel Laplacian: for every array of at least two rows and columns, every number of threads, every split of the cells
among them and every interleaving of their reads and writes, the call ends; the result is the one the sequential definition
computes, bit for bit, and the input is left as it was. -/
theorem C113_laplace (padded : Arr α) (hh : 2 ≤ padded.h) (hw : 2 ≤ padded.w) (dx : α) (m : Loc → α)
    (hm : Stores m "padded" padded) :
    ∃ r, NumbaGradients.laplace padded dx = .ok r ∧ r.h = padded.h - 2 ∧ r.w = padded.w - 2 ∧
      Always (Par.laplace (padded.h - 2) (padded.w - 2) dx) m fun m' =>
        Stores m' "out" r ∧ Stores m' "padded" padded := by
  obtain ⟨H, eH⟩ : ∃ H, padded.h = H + 2 := ⟨padded.h - 2, by omega⟩
  obtain ⟨W, eW⟩ : ∃ W, padded.w = W + 2 := ⟨padded.w - 2, by omega⟩
  have et := eq_tab padded
  rw [eH, eW] at et
  rw [eH, eW]
  refine ⟨tab H W fun i j => (padded.at' i (j + 1) + padded.at' (i + 1) j - ((4 : ℕ) : α) * padded.at' (i + 1) (j + 1)
      + padded.at' (i + 1) (j + 2) + padded.at' (i + 2) (j + 1)) / dx ^ 2, ?_, rfl, rfl, ?_⟩
  · conv_lhs => rw [et]
    simp only [NumbaGradients.laplace, sl_01, sl_10, sl_11, sl_12, sl_21, ok_add, ok_sub, ok_smul, ok_divs]
    congr 1
    refine tab_congr rfl rfl fun i j hi hj => ?_
    simp only [Nat.add_comm 1, Nat.add_comm 2, Nat.zero_add]
  · refine always_assign ?_ (always_nil ⟨?_, ?_⟩)
    · rintro ⟨i, j⟩ - x hx
      simp only [Expr.locs, locs_sub, locs_div, List.mem_append, List.mem_singleton, List.not_mem_nil,
        or_false, false_or] at hx
      rcases hx with (((hx | hx) | hx) | hx) | hx <;> (subst hx; simp)
    · intro i j hi hj
      rw [tab_h] at hi
      rw [tab_w] at hj
      rw [tab_at' _ _ _ hi hj]
      unfold assigned
      rw [if_pos ⟨rfl, mem_grid.2 ⟨hi, hj⟩⟩]
      simp only [Expr.eval, eval_sub, eval_div]
      rw [hm i (j + 1) (by omega) (by omega), hm (i + 1) j (by omega) (by omega),
        hm (i + 1) (j + 1) (by omega) (by omega), hm (i + 1) (j + 2) (by omega) (by omega),
        hm (i + 2) (j + 1) (by omega) (by omega)]
    · intro i j hi hj
      unfold assigned
      rw [if_neg (by simp)]
      exact hm i j hi hj

/-- a stencil loop followed by the loops `l` -/
theorem always_stencil {out : String} {zeta psi r : Arr α} {m : Loc → α} {l : List (Loop α)} {Q : (Loc → α) → Prop}
    (ke : (Int → Int → Expr α) → (Int → Int → Expr α) → Expr α) (k : (Int → Int → α) → (Int → Int → α) → α)
    (hz : Stores m "zeta" zeta) (hp : Stores m "psi" psi) (oz : "zeta" ≠ out) (op : "psi" ≠ out)
    (hl : ∀ (z p : Int → Int → Loc), (∀ a b, (z a b).arr = "zeta") → (∀ a b, (p a b).arr = "psi") →
      ∀ x ∈ (ke (fun a b => .cell (z a b)) fun a b => .cell (p a b)).locs, x.arr = "zeta" ∨ x.arr = "psi")
    (he : ∀ (z p : Int → Int → Loc), (ke (fun a b => .cell (z a b)) fun a b => .cell (p a b)).eval m
      = k (fun a b => m (z a b)) fun a b => m (p a b))
    (hk : ∀ z z' p p' : Int → Int → α,
      (∀ di dj, -1 ≤ di → di ≤ 1 → -1 ≤ dj → dj ≤ 1 → z di dj = z' di dj) →
      (∀ di dj, -1 ≤ di → di ≤ 1 → -1 ≤ dj → dj ≤ 1 → p di dj = p' di dj) → k z p = k z' p')
    (hr : NumbaArakawa.stencil k zeta psi = .ok r)
    (h : ∀ m', Stores m' out r → (∀ x, x.arr ≠ out → m' x = m x) → Always l m' Q) :
    Always (Par.stencil out zeta.h zeta.w ke :: l) m Q := by
  unfold NumbaArakawa.stencil at hr
  split at hr
  · cases hr
  next hs =>
  push Not at hs
  refine always_assign ?_ (h _ ?_ ?_)
  · rintro ⟨i, j⟩ - x hx
    dsimp only at hx
    split at hx
    · rcases hl (fun a b => ⟨"zeta", _, _⟩) (fun a b => ⟨"psi", _, _⟩) (fun _ _ => rfl) (fun _ _ => rfl) x hx with h | h
      · rw [h]; exact oz
      · rw [h]; exact op
    · cases hx
  · cases hr
    intro i j hi hj
    rw [tab_h] at hi
    rw [tab_w] at hj
    rw [tab_at' _ _ _ hi hj]
    unfold assigned
    rw [if_pos ⟨rfl, mem_grid.2 ⟨hi, hj⟩⟩]
    dsimp only
    split
    · next hc =>
      obtain ⟨h1, h2, h3, h4⟩ := hc
      refine (he (fun a b => ⟨"zeta", _, _⟩) (fun a b => ⟨"psi", _, _⟩)).trans (hk _ _ _ _ ?_ ?_)
      · intro di dj a1 a2 b1 b2
        exact hz _ _ (by omega) (by omega)
      · intro di dj a1 a2 b1 b2
        exact hp _ _ (by omega) (by omega)
    · rfl
  · intro x hx
    unfold assigned
    rw [if_neg fun e => hx e.1]

/-- The parallel Arakawa bracket: three stencil loops and a loop for their sum.  For all arrays `zeta` and `psi` (the latter at
least as large as the former), every number of threads, split and interleaving, the call ends with the array the sequential
definition computes, bit for bit, and leaves both inputs as they were. -/
theorem C113_arakawa (zeta psi : Arr α) (hh : zeta.h ≤ psi.h) (hw : zeta.w ≤ psi.w) (d : α) (m : Loc → α)
    (hz : Stores m "zeta" zeta) (hp : Stores m "psi" psi) :
    ∃ r, NumbaArakawa.arakawa zeta psi d = .ok r ∧ r.h = zeta.h ∧ r.w = zeta.w ∧
      Always (Par.arakawa zeta.h zeta.w d) m fun m' => Stores m' "out" r ∧ Stores m' "zeta" zeta ∧ Stores m' "psi" psi := by
  have hs : ¬(psi.h < zeta.h ∨ psi.w < zeta.w) := by omega
  obtain ⟨r1, e1, h1, w1⟩ : ∃ r, NumbaArakawa.jpp zeta psi d = .ok r ∧ r.h = zeta.h ∧ r.w = zeta.w :=
    ⟨_, if_neg hs, rfl, rfl⟩
  obtain ⟨r2, e2, h2, w2⟩ : ∃ r, NumbaArakawa.jpx zeta psi d = .ok r ∧ r.h = zeta.h ∧ r.w = zeta.w :=
    ⟨_, if_neg hs, rfl, rfl⟩
  obtain ⟨r3, e3, h3, w3⟩ : ∃ r, NumbaArakawa.jxp zeta psi d = .ok r ∧ r.h = zeta.h ∧ r.w = zeta.w :=
    ⟨_, if_neg hs, rfl, rfl⟩
  refine ⟨tab zeta.h zeta.w fun i j => (r1.at' i j + r2.at' i j + r3.at' i j) / ((3 : ℕ) : α), ?_, rfl, rfl, ?_⟩
  · unfold NumbaArakawa.arakawa
    rw [e1, e2, e3]
    conv_lhs => rw [eq_tab r1, eq_tab r2, eq_tab r3, h1, w1, h2, w2, h3, w3]
    simp only [ok_add, ok_divs]
  · have fr : ∀ {m m' : Loc → α} {out name : String} {a : Arr α}, Stores m name a → name ≠ out →
        (∀ x, x.arr ≠ out → m' x = m x) → Stores m' name a := fun h hn f i j hi hj => (f _ hn).trans (h i j hi hj)
    refine always_stencil _ _ hz hp (by decide) (by decide) ?_ (fun z p => rfl) ?_ e1 fun m1 q1 f1 => ?_
    · intro z p hz hp x hx
      simp only [Expr.locs, locs_sub, locs_div, List.mem_append, List.mem_singleton, List.not_mem_nil, or_false] at hx
      aesop
    · intro z z' p p' hz hp; simp [hz, hp]
    have hz1 := fr hz (by decide) f1
    have hp1 := fr hp (by decide) f1
    refine always_stencil _ _ hz1 hp1 (by decide) (by decide) ?_ (fun z p => rfl) ?_ e2 fun m2 q2 f2 => ?_
    · intro z p hz hp x hx
      simp only [Expr.locs, locs_sub, locs_div, List.mem_append, List.mem_singleton, List.not_mem_nil, or_false] at hx
      aesop
    · intro z z' p p' hz hp; simp [hz, hp]
    have hz2 := fr hz1 (by decide) f2
    have hp2 := fr hp1 (by decide) f2
    refine always_stencil _ _ hz2 hp2 (by decide) (by decide) ?_ (fun z p => rfl) ?_ e3 fun m3 q3 f3 => ?_
    · intro z p hz hp x hx
      simp only [Expr.locs, locs_sub, locs_div, List.mem_append, List.mem_singleton, List.not_mem_nil, or_false] at hx
      aesop
    · intro z z' p p' hz hp; simp [hz, hp]
    have k1 := fr (fr q1 (by decide) f2) (by decide) f3
    have k2 := fr q2 (by decide) f3
    have out : ∀ {m : Loc → α} {cells : List (ℕ × ℕ)} {e : ℕ × ℕ → Expr α}, ∀ x : Loc, x.arr ≠ "out" →
        assigned "out" cells e m x = m x := fun x hx => if_neg fun h => hx h.1
    refine always_assign ?_ (always_nil ⟨?_, fr (fr hz2 (by decide) f3) (by decide) out,
      fr (fr hp2 (by decide) f3) (by decide) out⟩)
    · rintro ⟨i, j⟩ - x hx
      simp only [Expr.locs, locs_div, List.mem_append, List.mem_singleton, List.not_mem_nil, or_false] at hx
      rcases hx with (hx | hx) | hx <;> (subst hx; simp)
    · intro i j hi hj
      rw [tab_h] at hi
      rw [tab_w] at hj
      rw [tab_at' _ _ _ hi hj]
      unfold assigned
      rw [if_pos ⟨rfl, mem_grid.2 ⟨hi, hj⟩⟩]
      simp only [Expr.eval, eval_div]
      rw [k1 i j (by omega) (by omega), k2 i j (by omega) (by omega), q3 i j (by omega) (by omega)]

/-- On a periodic field the parallel Laplacian ends with the five-point stencil of the torus in every schedule. -/
theorem C113_periodic_laplace {h w : ℕ} [NeZero h] [NeZero w] (f : ZMod h → ZMod w → α) (dx : α) (padded : Arr α)
    (hpad : (ofField f).padWrap 1 = .ok padded) (m : Loc → α) (hm : Stores m "padded" padded) :
    Always (Par.laplace h w dx) m fun m' => Stores m' "out" (ofField (Spec.lap dx f)) := by
  have e : NumbaGradients.periodic_laplace (ofField f) dx = NumbaGradients.laplace padded dx := by
    unfold NumbaGradients.periodic_laplace
    rw [hpad]; rfl
  rw [numba_periodic_laplace_ofField] at e
  rw [padWrap_ofField] at hpad
  cases hpad
  obtain ⟨r, h1, -, -, h2, h3, h4⟩ := C113_laplace _ (Nat.le_add_left 2 h) (Nat.le_add_left 2 w) dx m hm
  rw [← e] at h1
  cases h1
  exact ⟨h2, h3, fun m' hm' => (h4 m' hm').1⟩

end

/-- On periodic fields the parallel bracket, of whose result `[1:-1, 1:-1]` is used, ends with Arakawa's bracket of the torus in
every schedule. -/
theorem C113_periodic_arakawa {K : Type} [Field K] [Inhabited K] {h w : ℕ} [NeZero h] [NeZero w] (z p : ZMod h → ZMod w → K)
    (dx : K) (zp pp : Arr K) (hz : (ofField z).padWrap 1 = .ok zp) (hp : (ofField p).padWrap 1 = .ok pp) (m : Loc → K)
    (mz : Stores m "zeta" zp) (mp : Stores m "psi" pp) :
    Always (Par.arakawa (h + 2) (w + 2) dx) m fun m' => ∀ i j, i < h → j < w →
      m' ⟨"out", i + 1, j + 1⟩ = Spec.jac dx z p i j := by
  have e := numba_arakawa_ofField z p dx
  unfold NumbaArakawa.periodic_arakawa at e
  rw [hz, hp] at e
  rw [padWrap_ofField] at hz hp
  cases hz
  cases hp
  obtain ⟨r, h1, hh, hw, h2, h3, h4⟩ := C113_arakawa _ _ (Nat.le_refl (h + 2)) (Nat.le_refl (w + 2)) dx m mz mp
  simp only [Py.ok_bind, mul_one] at e
  simp only [mul_one] at h1
  rw [h1] at e
  refine ⟨h2, h3, fun m' hm' i j hi hj => ?_⟩
  rw [(h4 m' hm').1 (i + 1) (j + 1) (by rw [hh]; change i + 1 < h + 2; omega) (by rw [hw]; change j + 1 < w + 2; omega)]
  have e' : r.sl s1m1 s1m1 = ofField (Spec.jac dx z p) := Except.ok.inj e
  have hh' : r.h = h + 2 := hh
  have hw' : r.w = w + 2 := hw
  rw [eq_tab r, hh', hw', sl_11] at e'
  have e2 := congrArg (fun a : Arr K => a.at' i j) e'
  simp only [ofField, tab_at' _ _ _ hi hj] at e2
  rw [← e2, Nat.add_comm i, Nat.add_comm j]

/-- The loops of `fftfreq_sq`, written with `prange`, fill every cell of the table of squared wave numbers, whether Numba runs
them in parallel or one after the other. -/
theorem C113_fftfreq_sq (h w : ℕ) (m : Loc → ℝ) (hx : ∀ i < h, m ⟨"freq_x", 0, i⟩ = NumbaPoisson.custom_fftfreq h i)
    (hy : ∀ j < w, m ⟨"freq_y", 0, j⟩ = NumbaPoisson.custom_fftfreq w j) :
    Always (Par.fftfreq_sq h w) m fun m' => Stores m' "k_sq" (NumbaPoisson.fftfreq_sq h w) := by
  refine always_assign ?_ (always_nil ?_)
  · rintro ⟨i, j⟩ - x hx
    simp only [Expr.locs, List.mem_append, List.mem_singleton] at hx
    rcases hx with hx | hx <;> (subst hx; simp)
  · intro i j hi hj
    change i < h at hi
    change j < w at hj
    unfold assigned NumbaPoisson.fftfreq_sq
    rw [if_pos ⟨rfl, mem_grid.2 ⟨hi, hj⟩⟩, tab_at' _ _ _ hi hj]
    simp only [Expr.eval]
    rw [hx i hi, hy j hj]

/-! ### examples -/

/-- a memory that holds a 4 × 5 array: the hypotheses of `C113_laplace` -/
example : Stores (fun x : Loc => if x.arr = "padded" then (10 * x.i + x.j : ℚ) else 0) "padded"
    (tab 4 5 fun i j => (10 * i + j : ℚ)) := by
  intro i j hi hj
  rw [tab_h] at hi
  rw [tab_w] at hj
  rw [tab_at' _ _ _ hi hj]
  exact if_pos rfl

/-- two threads may do the cells of a 2 × 2 result in any order -/
example : (assign "out" (grid 2 2) fun _ => Expr.lit (0 : ℚ)).Split (p := 2) ![[(1, 1), (0, 0)], [(1, 0), (0, 1)]] := by
  unfold Loop.Split
  decide

/-- The schedule does matter for a loop with a race: copying neighbours in place has two outcomes.  So the theorems above say
something about the kernels and not only about the model of threads. -/
example : ∃ (lp : Loop ℕ) (m m₁ m₂ : Loc → ℕ), lp.Runs m m₁ ∧ lp.Runs m m₂ ∧ m₁ ≠ m₂ := by
  let lp : Loop ℕ := assign "a" [(0, 0), (0, 1)] fun c => .cell ⟨"a", 0, 1 - c.2⟩
  have key : ∀ (m : Loc → ℕ) (c d : ℕ × ℕ), [c, d].Perm [(0, 0), (0, 1)] →
      lp.Runs m (Function.update (Function.update m ⟨"a", c.1, c.2⟩ (m ⟨"a", 0, 1 - c.2⟩)) ⟨"a", d.1, d.2⟩
        (Function.update m ⟨"a", c.1, c.2⟩ (m ⟨"a", 0, 1 - c.2⟩) ⟨"a", 0, 1 - d.2⟩)) := by
    intro m c d hp
    have hs : lp.Split (p := 1) fun _ => [c, d] := by
      simpa [Loop.Split] using (show [c, d].Perm lp.cells from hp)
    have h := Relation.ReflTransGen.refl (r := Step lp.body) (a := start m fun _ : Fin 1 => [c, d])
    have h := h.tail (.fetch _ 0 _ _ rfl)
    have h := h.tail (.rd _ 0 _ _ _ rfl)
    have h := h.tail (.wr _ 0 _ _ _ _ rfl)
    have h := h.tail (.fetch _ 0 _ _ rfl)
    have h := h.tail (.rd _ 0 _ _ _ rfl)
    have h := h.tail (.wr _ 0 _ _ _ _ rfl)
    exact ⟨1, _, _, hs, h, fun t => by rw [Subsingleton.elim t 0]; rfl, rfl⟩
  refine ⟨lp, fun x => x.j, _, _, key _ _ _ (.refl _), key _ (0, 1) (0, 0) (.swap _ _ _), fun h => ?_⟩
  have := congrFun h ⟨"a", 0, 0⟩
  revert this
  decide

example := C113_laplace (tab 4 5 fun i j => (10 * i + j : ℚ)) (by decide) (by decide) (1 / 2)
  (fun x : Loc => if x.arr = "padded" then (10 * x.i + x.j : ℚ) else 0) (by
    intro i j hi hj
    rw [tab_h] at hi
    rw [tab_w] at hj
    rw [tab_at' _ _ _ hi hj]
    exact if_pos rfl)

example := C113_arakawa (tab 4 5 fun i j => (10 * i + j : ℚ)) (tab 4 5 fun i j => (10 * i + j : ℚ)) (by decide) (by decide) (1 / 2)
  (fun x : Loc => (10 * x.i + x.j : ℚ)) (by
    intro i j hi hj
    rw [tab_h] at hi
    rw [tab_w] at hj
    rw [tab_at' _ _ _ hi hj]) (by
    intro i j hi hj
    rw [tab_h] at hi
    rw [tab_w] at hj
    rw [tab_at' _ _ _ hi hj])

example := C113_fftfreq_sq 4 5 (fun x : Loc => if x.arr = "freq_x" then NumbaPoisson.custom_fftfreq 4 x.j
  else NumbaPoisson.custom_fftfreq 5 x.j) (fun i _ => if_pos rfl) (fun j _ => if_neg (by simp))

end Verif.Props
