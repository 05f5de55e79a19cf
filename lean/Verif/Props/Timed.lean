import Verif.Lemmas.Timed
import Verif.Props.HWHistory
import Mathlib.Data.List.Sort
import Mathlib.Tactic.FieldSimp

/-!
# C131: the profile of a simulation
-/

namespace Verif.Props

open Timed

/-- `history` on a computer with a clock: any sequence of steps of one simulation object -/
noncomputable def timedHistory (clock : ℕ → ℝ) (hw : HW) (dx : ℝ) : List Step → NS Val → T (NS Val)
  | [], s => pure s
  | .rk4 dt :: l, s => do
    let s ← Timed.rk4_step clock hw s dt dx
    timedHistory clock hw dx l s
  | .euler dt :: l, s => do
    let s ← Timed.euler_step clock hw s dt dx
    timedHistory clock hw dx l s

private theorem sim_history {clock : ℕ → ℝ} (hw : HW) (dx : ℝ) (l : List Step) (s : NS Val) :
    Sim (Whole clock) (timedHistory clock hw dx l s) (history hw dx l s) := by
  induction l generalizing s with
  | nil => exact fun p => ⟨rfl, Whole.refl clock p⟩
  | cons a l ih =>
    cases a with
    | rk4 dt => exact ((sim_rk4 hw s dt dx).bind_strict ih).mono And.left
    | euler dt => exact ((sim_euler hw s dt dx).bind_strict ih).mono And.left

private theorem sim_history_strict {clock : ℕ → ℝ} (hw : HW) (dx : ℝ) (l : List Step) (hl : l ≠ []) (s : NS Val) :
    Sim (Strict clock) (timedHistory clock hw dx l s) (history hw dx l s) := by
  cases l with
  | nil => exact absurd rfl hl
  | cons a l =>
    cases a with
    | rk4 dt => exact (sim_rk4 hw s dt dx).bind_strict (sim_history hw dx l)
    | euler dt => exact (sim_euler hw s dt dx).bind_strict (sim_history hw dx l)

/-- **C131**: measuring time changes nothing: whatever the clock shows, every sequence of steps returns
the states and counts the calls, or raises the exception, of the simulation without clock (the subject of
the other properties). -/
theorem C131_same_simulation (clock : ℕ → ℝ) (hw : HW) (dx : ℝ) (l : List Step) (s : NS Val) (p : Prof) :
    (timedHistory clock hw dx l s p).map (fun r => (r.1, r.2.calls)) = history hw dx l s p.calls := by
  have h := sim_history (clock := clock) hw dx l s p
  unfold At at h
  cases hr : timedHistory clock hw dx l s p with
  | error e => rw [hr] at h; exact h.symm
  | ok r => rw [hr] at h; exact h.1.symm

/-- **C131**: with a clock that does not run backwards, after any sequence of steps no total is negative,
the times of the parts (`get_phi`, `diffuse`, `gradient_2d`, `poisson_bracket`) add up to at most the time of
the steps, and this is at most the time that has passed; it is positive if the clock shows a later time at
each reading and there was a step. -/
theorem C131_times (clock : ℕ → ℝ) (hm : Monotone clock) (hw : HW) (dx : ℝ) (l : List Step) (s s' : NS Val) (p : Prof)
    (h : timedHistory clock hw dx l s {} = .ok (s', p)) :
    0 ≤ p.times.get_phi ∧ 0 ≤ p.times.diffuse ∧ 0 ≤ p.times.gradient_2d ∧ 0 ≤ p.times.poisson_bracket ∧
    p.times.get_phi + p.times.diffuse + p.times.gradient_2d + p.times.poisson_bracket ≤ p.times.full_step ∧
    p.times.full_step ≤ clock p.reads - clock 0 ∧ (StrictMono clock → l ≠ [] → 0 < p.times.full_step) := by
  have hst : StrictMono clock → l ≠ [] → 0 < p.times.full_step := by
    intro m hl
    have hs := sim_history_strict (clock := clock) hw dx l hl s {}
    unfold At at hs
    rw [h] at hs
    exact hs.2.2 m
  have hs := sim_history (clock := clock) hw dx l s {}
  unfold At at hs
  rw [h] at hs
  obtain ⟨-, -, H⟩ := hs
  obtain ⟨⟨a1, a2, a3, a4⟩, b, c⟩ := H hm
  unfold Times.parts at b
  dsimp only at a1 a2 a3 a4 b c
  exact ⟨a1, a2, a3, a4, by linarith, by linarith, hst⟩

private theorem before_total (a b : Row) : Before a b ∨ Before b a := by
  unfold Before
  cases a.perCall <;> cases b.perCall <;> simp [le_total]

private theorem before_trans {a b c : Row} (h : Before a b) (h' : Before b c) : Before a c := by
  unfold Before at *
  revert h h'
  cases a.perCall <;> cases b.perCall <;> cases c.perCall <;> simp
  exact le_trans

/-- **C131**: `print_log` always prints a table. -/
theorem C131_prints (p : Prof) : ∃ table, Printed p table := by
  classical
  have : Std.Total Before := ⟨before_total⟩
  have : IsTrans Row Before := ⟨fun _ _ _ => before_trans⟩
  exact ⟨(rows p).insertionSort Before, List.perm_insertionSort Before _, List.pairwise_insertionSort Before _⟩

/-- **C131**: the table printed after any sequence of steps.  It has one row for each of the five functions, from the
cheapest call to the most expensive, the functions never called at the end; a row holds the logged time and
the number of calls, their quotient, and the share of the time of the steps in percent, which is 100 for the
steps themselves and at most 100 for the four parts together. -/
theorem C131_table (clock : ℕ → ℝ) (hm : Monotone clock) (hw : HW) (dx : ℝ) (l : List Step) (s s' : NS Val) (p : Prof)
    (h : timedHistory clock hw dx l s {} = .ok (s', p)) (ht : 0 < p.times.full_step) (table : List Row) (hp : Printed p table) :
    (table.map fun r => (r.name, r.time, r.calls)).Perm
      [("full_step", p.times.full_step, p.calls.full_step), ("get_phi", p.times.get_phi, p.calls.get_phi),
       ("diffuse", p.times.diffuse, p.calls.diffuse), ("gradient_2d", p.times.gradient_2d, p.calls.gradient_2d),
       ("poisson_bracket", p.times.poisson_bracket, p.calls.poisson_bracket)] ∧
    (∀ r ∈ table, (r.calls = 0 ↔ r.perCall = none) ∧ (∀ q, r.perCall = some q → q * r.calls = r.time) ∧
      ∃ x, r.percent = some x ∧ 0 ≤ x ∧ x * p.times.full_step = 100 * r.time ∧ (r.name = "full_step" → x = 100)) ∧
    (((table.filter (·.name ≠ "full_step")).map fun r => r.percent.getD 0).sum ≤ 100) ∧
    table.Pairwise (fun a b => ∀ y, b.perCall = some y → ∃ x, a.perCall = some x ∧ x ≤ y) := by
  obtain ⟨t1, t2, t3, t4, t5, -⟩ := C131_times clock hm hw dx l s s' p h
  have t0 := ht.ne'
  refine ⟨?_, ?_, ?_, ?_⟩
  · exact hp.1.map fun r => (r.name, r.time, r.calls)
  · intro r hr
    have key : ∀ (n : String) (t : ℝ) (c : ℕ), 0 ≤ t → (n = "full_step" → t = p.times.full_step) →
        r = ⟨n, t, c, quot t c, (quot t p.times.full_step).map (· * 100)⟩ →
        (r.calls = 0 ↔ r.perCall = none) ∧ (∀ q, r.perCall = some q → q * r.calls = r.time) ∧
          ∃ x, r.percent = some x ∧ 0 ≤ x ∧ x * p.times.full_step = 100 * r.time ∧ (r.name = "full_step" → x = 100) := by
      rintro n t c h0 hn rfl
      refine ⟨?_, ?_, t / p.times.full_step * 100, ?_, by positivity, by dsimp only; field_simp, fun e => ?_⟩
      · dsimp only
        unfold quot
        by_cases hc : c = 0 <;> simp [hc]
      · dsimp only
        unfold quot
        intro q hq
        split at hq
        · cases hq
        · next hc =>
          injection hq with hq
          rw [← hq]
          field_simp
      · dsimp only
        unfold quot
        rw [if_neg t0]
        rfl
      · rw [hn e]
        field_simp
    have hr := hp.1.mem_iff.mp hr
    simp only [rows, List.mem_cons, List.not_mem_nil, or_false] at hr
    rcases hr with hr | hr | hr | hr | hr
    · exact key _ _ _ ht.le (fun _ => rfl) hr
    · exact key _ _ _ t1 (fun e => absurd e (by decide)) hr
    · exact key _ _ _ t2 (fun e => absurd e (by decide)) hr
    · exact key _ _ _ t3 (fun e => absurd e (by decide)) hr
    · exact key _ _ _ t4 (fun e => absurd e (by decide)) hr
  · have e := (((hp.1.filter (·.name ≠ "full_step")).map fun r => r.percent.getD 0).sum_eq)
    rw [e]
    have : (((rows p).filter (·.name ≠ "full_step")).map fun r => r.percent.getD 0) =
        [p.times.get_phi / p.times.full_step * 100, p.times.diffuse / p.times.full_step * 100,
          p.times.gradient_2d / p.times.full_step * 100, p.times.poisson_bracket / p.times.full_step * 100] := by
      simp [rows, quot, t0]
    rw [this]
    simp only [List.sum_cons, List.sum_nil]
    have : p.times.get_phi / p.times.full_step * 100 + (p.times.diffuse / p.times.full_step * 100 +
        (p.times.gradient_2d / p.times.full_step * 100 + (p.times.poisson_bracket / p.times.full_step * 100 + 0))) =
        (p.times.get_phi + p.times.diffuse + p.times.gradient_2d + p.times.poisson_bracket) / p.times.full_step * 100 := by
      field_simp
      ring
    rw [this]
    have := (div_le_one ht).mpr t5
    linarith
  · refine hp.2.imp fun {a b} hab y hy => ?_
    unfold Before at hab
    rw [hy] at hab
    cases ha : a.perCall with
    | none => rw [ha] at hab; exact hab.elim
    | some x => rw [ha] at hab; exact ⟨x, rfl, hab⟩

/-- a clock: the first interval takes 99.5 seconds, everything later less than a second -/
noncomputable def slowStart (k : ℕ) : ℝ := if k = 0 then 0 else 100 - 1 / (k + 1)

private theorem slowStart_strict : StrictMono slowStart := by
  refine strictMono_nat_of_lt_succ fun k => ?_
  unfold slowStart
  rw [if_neg (Nat.succ_ne_zero k)]
  have h2 : (0 : ℝ) < (k : ℝ) + 1 := by positivity
  have h3 : (0 : ℝ) < ((k + 1 : ℕ) : ℝ) + 1 := by positivity
  split
  · have : 1 / (((k + 1 : ℕ) : ℝ) + 1) ≤ 1 := by
      rw [div_le_one h3]
      have : (0 : ℝ) ≤ ((k + 1 : ℕ) : ℝ) := by positivity
      linarith
    linarith
  · have : 1 / (((k + 1 : ℕ) : ℝ) + 1) < 1 / ((k : ℝ) + 1) := by
      apply one_div_lt_one_div_of_lt h2
      push_cast
      linarith
    linarith

/-- **C131 is violated** if the object is also used outside its steps: `run` calls `hw.get_phi` before the first step, and
that time is added to the same total.  With some clock that runs forward, every simulation after such a call reports more time for
`get_phi` than for the steps. -/
theorem C131_outside_violated : ∃ clock : ℕ → ℝ, StrictMono clock ∧
    ∀ (hw : HW) (omega : Arr ℝ) (dx : ℝ) (l : List Step) (s s' : NS Val) (p : Prof),
      (do let _ ← Timed.get_phi clock hw omega dx; timedHistory clock hw dx l s) {} = .ok (s', p) →
      p.times.full_step < p.times.get_phi := by
  refine ⟨slowStart, slowStart_strict, fun hw omega dx l s s' p h => ?_⟩
  unfold Timed.get_phi at h
  dsimp only at h
  cases hphi : hw.backend.poisson_solver (omega.map (· - omega.mean)) dx with
  | error e =>
    rw [hphi] at h
    cases h
  | ok phi =>
    rw [hphi] at h
    have h : timedHistory slowStart hw dx l s ⟨2, { get_phi := 0 + (slowStart 1 - slowStart 0) }, { get_phi := 1 }⟩ = .ok (s', p) := h
    have hs := sim_history (clock := slowStart) hw dx l s ⟨2, { get_phi := 0 + (slowStart 1 - slowStart 0) }, { get_phi := 1 }⟩
    unfold At at hs
    rw [h] at hs
    obtain ⟨-, hle, H⟩ := hs
    obtain ⟨⟨a1, -, -, -⟩, -, c⟩ := H slowStart_strict.monotone
    dsimp only at a1 c hle
    have e1 : slowStart 1 = 100 - 1 / 2 := by norm_num [slowStart]
    have e0 : slowStart 0 = 0 := by norm_num [slowStart]
    have e2 : slowStart 2 = 100 - 1 / 3 := by norm_num [slowStart]
    have e3 : slowStart p.reads ≤ 100 := by
      unfold slowStart
      split
      · norm_num
      · have : (0 : ℝ) ≤ 1 / ((p.reads : ℝ) + 1) := by positivity
        linarith
    rw [e1, e0] at a1
    rw [e2] at c
    linarith

/-! ## non-vacuity -/

/-- two steps of a 4x5 simulation on a computer whose clock ticks once a second -/
theorem demo_timed : ∃ s' p, timedHistory (fun k => (k : ℝ)) (HW.init numpyBackend 1 3 1 (1 / 10) 1) 1
    [.rk4 (1 / 10), .euler (1 / 10)] demoState {} = .ok (s', p) ∧ p.calls.full_step = 2 := by
  obtain ⟨s', c', h1, h2, -⟩ := C36_counters (hw := HW.init numpyBackend 1 3 1 (1 / 10) 1) (dx := 1) (h := 4) (w := 5)
    (by decide) (by decide) (.inl rfl) [.rk4 (1 / 10), .euler (1 / 10)] demoState demoState_isState {}
  have h := C131_same_simulation (fun k => (k : ℝ)) (HW.init numpyBackend 1 3 1 (1 / 10) 1) 1 [.rk4 (1 / 10), .euler (1 / 10)]
    demoState {}
  rw [h1] at h
  cases hr : timedHistory (fun k => (k : ℝ)) (HW.init numpyBackend 1 3 1 (1 / 10) 1) 1 [.rk4 (1 / 10), .euler (1 / 10)]
      demoState {} with
  | error e => rw [hr] at h; cases h
  | ok r =>
    rw [hr] at h
    injection h with h
    refine ⟨r.1, r.2, rfl, ?_⟩
    rw [show r.2.calls = c' from congrArg Prod.snd h, h2]
    rfl

example : ∃ (p : Prof) (table : List Row), Printed p table ∧ p.calls.full_step = 2 ∧ 0 < p.times.full_step ∧
    ((table.filter (·.name ≠ "full_step")).map fun r => r.percent.getD 0).sum ≤ 100 := by
  obtain ⟨s', p, h1, h2⟩ := demo_timed
  have hm : StrictMono fun k : ℕ => (k : ℝ) := Nat.strictMono_cast
  obtain ⟨-, -, -, -, -, -, h3⟩ := C131_times _ hm.monotone _ _ _ _ _ _ h1
  have h3 := h3 hm (by simp)
  obtain ⟨table, ht⟩ := C131_prints p
  exact ⟨p, table, ht, h2, h3, (C131_table _ hm.monotone _ _ _ _ _ _ h1 h3 table ht).2.2.1⟩

end Verif.Props
