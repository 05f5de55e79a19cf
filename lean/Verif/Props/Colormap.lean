import Verif.Lemmas.Colormap

/-!
# C122: the colour map of the movies
-/

set_option linter.unusedSectionVars false

namespace Verif.Props

open H5IO Colormap

section
variable {K : Type} [Field K] [LinearOrder K] [IsStrictOrderedRing K] [FloorRing K]

/-- the colour map computed with rounded numbers -/
def viridis (fl : K → K) (vals : ℤ) : Py (List (K × K × K)) :=
  @get_extended_viridis K (roundedOps fl) (fun z => fl ((z : K) / 100)) vals

theorem truncZ_bounds (x : K) (h : 0 ≤ x) : 0 ≤ truncZ x ∧ x - 1 < truncZ x ∧ (truncZ x : K) ≤ x := by
  unfold truncZ
  rw [if_pos h]
  exact ⟨Int.floor_nonneg.2 h, Int.sub_one_lt_floor x, Int.floor_le x⟩

theorem viridis_eq (fl : K → K) (h : fl 256 ≠ 0) (vals : ℤ) :
    viridis fl vals = @segments K (roundedOps fl) vals (viridisExtended.map (entryOf fl)) := by
  unfold viridis get_extended_viridis
  rw [Helpers.mapM_ok _ (entryOf fl) _ fun e _ => entry_eq h e]
  rfl

/-- **C122** Whatever the rounding, the colours are the linear blends of
neighbouring colours of the table, in order, up to `2^-48`. -/
theorem C122_blends {fl : K → K} (hf : Spec.RelError fl) (vals : ℤ) (h0 : 0 ≤ vals) (hv : vals ≤ 10 ^ 9) :
    ∃ cs, viridis fl vals = .ok cs ∧ Spec.Blends (1 / 2 ^ 48) (1 / 10 ^ 4) vals viridisExtended cs := by
  have h3 : ∀ n : ℕ, n ≠ 0 → n ≤ 2 ^ 40 → fl (n : K) ≠ 0 := fun n hn hn2 => by
    have := rel_int hf (n : ℤ) (by rw [abs_of_nonneg (by omega)]; exact_mod_cast le_trans hn2 (by norm_num))
    rw [Int.cast_natCast] at this
    exact this.ne_zero (by norm_num) (by exact_mod_cast hn)
  rw [viridis_eq fl (by exact_mod_cast h3 256 (by norm_num) (by norm_num))]
  refine segments_blends hf.zero _ _ (by norm_num) vals hv h0 (fun a b ha hab hb => ?_)
    (fun A B n k hA hB hn hk => lin_close hf A B n k hA hB hn hk) h3 _ (by decide) (by decide) (by decide)
  have h1 := points_nonneg hf a b vals ha hab hb h0 hv
  have h2 := abs_le.1 (points_close hf a b vals ha hab hb (by rwa [abs_of_nonneg h0]))
  obtain ⟨t0, t1, t2⟩ := truncZ_bounds _ h1
  exact ⟨t0, by linarith, by linarith⟩

/-- **C122** With exact arithmetic both errors vanish. -/
theorem C122_exact (vals : ℤ) (h0 : 0 ≤ vals) (hv : vals ≤ 10 ^ 9) :
    ∃ cs, viridis (id : K → K) vals = .ok cs ∧ Spec.Blends 0 0 vals viridisExtended cs := by
  rw [viridis_eq id (by norm_num)]
  refine segments_blends rfl _ _ (by norm_num) vals hv h0 (fun a b ha hab hb => ?_)
    (fun A B n k _ _ _ _ => by rw [lin_exact, sub_self, abs_zero]) (fun n hn _ => by simpa using hn)
    _ (by decide) (by decide) (by decide)
  have e : points (id : K → K) a b vals = ((b : K) - a) / 100 * vals := by
    unfold points; simp only [id_eq]; ring
  have h1 : 0 ≤ points (id : K → K) a b vals := points_nonneg relError_id a b vals ha hab hb h0 hv
  obtain ⟨t0, t1, t2⟩ := truncZ_bounds _ h1
  rw [e] at t0 t1 t2 ⊢
  exact ⟨t0, by linarith, by linarith⟩

/-! What follows from being a blend of the table -/

theorem blends_length {ε δ : K} {vals : ℤ} {L : List (ℤ × ℤ × ℤ × ℤ)} {cs : List (K × K × K)}
    (h : Spec.Blends ε δ vals L cs) (p : ℤ × ℤ × ℤ × ℤ) (hp : L.head? = some p) (q : ℤ × ℤ × ℤ × ℤ)
    (hq : L.getLast? = some q) :
    ((q.1 : K) - p.1) / 100 * vals - (L.length - 1) * (1 + δ) ≤ cs.length
      ∧ (cs.length : K) ≤ ((q.1 : K) - p.1) / 100 * vals + (L.length - 1) * δ := by
  induction h generalizing p with
  | last r =>
    simp only [List.head?_cons, Option.some.injEq, List.getLast?_singleton] at hp hq
    subst hp; subst hq
    simp
  | step a b rest s cs lo up _ _ ih =>
    simp only [List.head?_cons, Option.some.injEq] at hp
    subst hp
    obtain ⟨i1, i2⟩ := ih b rfl (by simpa [List.getLast?_cons_cons] using hq)
    simp only [List.length_append, List.length_cons, Nat.cast_add, Nat.cast_one] at *
    have e : ((q.1 : K) - a.1) / 100 * vals = ((q.1 : K) - b.1) / 100 * vals + ((b.1 : K) - a.1) / 100 * vals := by ring
    rw [e]
    constructor <;> linarith

/-- **C122** Between `vals - 15` and `vals` colours are returned, never more; missing:
exactly `vals`, see `C122_default_violated`. -/
theorem C122_number_partial {fl : K → K} (hf : Spec.RelError fl) (vals : ℤ) (h0 : 0 ≤ vals) (hv : vals ≤ 10 ^ 9) :
    ∃ cs, viridis fl vals = .ok cs ∧ vals - 15 ≤ cs.length ∧ (cs.length : ℤ) ≤ vals := by
  obtain ⟨cs, h, hb⟩ := C122_blends hf vals h0 hv
  obtain ⟨l, u⟩ := blends_length hb (0, 255, 200, 100) rfl (100, 253, 231, 37) rfl
  refine ⟨cs, h, ?_, ?_⟩
  · have : ((vals - 16 : ℤ) : K) < ((cs.length : ℤ) : K) := by
      have e : (viridisExtended.length : K) = 16 := by norm_num [viridisExtended]
      rw [e] at l
      push_cast
      norm_num at l ⊢
      linarith
    have := Int.cast_lt.1 this
    omega
  · have : ((cs.length : ℤ) : K) < ((vals + 1 : ℤ) : K) := by
      have e : (viridisExtended.length : K) = 16 := by norm_num [viridisExtended]
      rw [e] at u
      push_cast
      norm_num at u ⊢
      linarith
    have := Int.cast_lt.1 this
    omega

theorem blends_length_exact {vals : ℤ} {L : List (ℤ × ℤ × ℤ × ℤ)} {cs : List (K × K × K)}
    (h : Spec.Blends (0 : K) 0 vals L cs) (hv : 100 ∣ vals) (p : ℤ × ℤ × ℤ × ℤ) (hp : L.head? = some p)
    (q : ℤ × ℤ × ℤ × ℤ) (hq : L.getLast? = some q) : (cs.length : ℤ) = (q.1 - p.1) * (vals / 100) := by
  obtain ⟨m, rfl⟩ := hv
  rw [Int.mul_ediv_cancel_left _ (by norm_num)]
  induction h generalizing p with
  | last r =>
    simp only [List.head?_cons, Option.some.injEq, List.getLast?_singleton] at hp hq
    subst hp; subst hq
    simp
  | step a b rest s cs lo up _ _ ih =>
    simp only [List.head?_cons, Option.some.injEq] at hp
    subst hp
    have ih := ih b rfl (by simpa [List.getLast?_cons_cons] using hq)
    have e : ((b.1 : K) - a.1) / 100 * ((100 * m : ℤ) : K) = (((b.1 - a.1) * m : ℤ) : K) := by push_cast; ring
    rw [e] at lo up
    have hs : (s.length : ℤ) = (b.1 - a.1) * m := by
      apply le_antisymm
      · have : ((s.length : ℤ) : K) ≤ (((b.1 - a.1) * m : ℤ) : K) := by rw [Int.cast_natCast]; linarith
        exact Int.cast_le.1 this
      · have : (((b.1 - a.1) * m - 1 : ℤ) : K) < ((s.length : ℤ) : K) := by
          rw [Int.cast_sub, Int.cast_one, Int.cast_natCast]; linarith
        have := Int.cast_lt.1 this
        omega
    rw [List.length_append, Nat.cast_add, ih, hs]
    ring

/-- **C122** With exact arithmetic a multiple of 100 colours is delivered exactly. -/
theorem C122_number_exact (vals : ℤ) (h0 : 0 ≤ vals) (hv : vals ≤ 10 ^ 9) (h : 100 ∣ vals) :
    ∃ cs, viridis (id : K → K) vals = .ok cs ∧ (cs.length : ℤ) = vals := by
  obtain ⟨cs, h', hb⟩ := C122_exact (K := K) vals h0 hv
  refine ⟨cs, h', ?_⟩
  rw [blends_length_exact hb h (0, 255, 200, 100) rfl (100, 253, 231, 37) rfl]
  obtain ⟨m, rfl⟩ := h
  omega

theorem blend_bounds (A B : ℤ) (n k : ℕ) (hA : 1 ≤ A ∧ A ≤ 255) (hB : 1 ≤ B ∧ B ≤ 255) (hk : k < n) :
    (1 : K) / 256 ≤ Spec.blend A B n k ∧ Spec.blend A B n k ≤ (255 : K) / 256 := by
  have hn0 : (0 : K) < n := by exact_mod_cast (by omega : 0 < n)
  have hl1 : (k : K) / n ≤ 1 := by
    rw [div_le_one hn0]
    exact_mod_cast hk.le
  have := mix_bounds (relError_id (K := K)) (a := (A : K)) (b := B) (l := k / n) (lo := 1) (hi := 255) (by positivity) hl1
    (by exact_mod_cast hA.1) (by exact_mod_cast hA.2) (by exact_mod_cast hB.1) (by exact_mod_cast hB.2)
  unfold Spec.blend
  constructor <;> gcongr
  · exact this.1
  · exact this.2

theorem blends_valid {ε δ : K} {vals : ℤ} {L : List (ℤ × ℤ × ℤ × ℤ)} {cs : List (K × K × K)}
    (h : Spec.Blends ε δ vals L cs) (hL : ∀ e ∈ L, Row e) (hε : ε < 1 / 256) :
    ∀ c ∈ cs, (0 < c.1 ∧ c.1 < 1) ∧ (0 < c.2.1 ∧ c.2.1 < 1) ∧ (0 < c.2.2 ∧ c.2.2 < 1) := by
  induction h with
  | last r => simp
  | step a b rest s cs _ _ hc _ ih =>
    intro c hcc
    rcases List.mem_append.1 hcc with hs | hs
    · obtain ⟨k, hk, rfl⟩ := List.mem_iff_getElem.1 hs
      obtain ⟨c1, c2, c3⟩ := hc k hk
      have ha := hL a (by simp)
      have hb := hL b (by simp)
      have one : ∀ (x : K) (A B : ℤ), (1 ≤ A ∧ A ≤ 255) → (1 ≤ B ∧ B ≤ 255) → |x - Spec.blend A B s.length k| ≤ ε →
          0 < x ∧ x < 1 := fun x A B hA hB hx => by
        have h1 := blend_bounds (K := K) A B s.length k hA hB hk
        have h2 := abs_le.1 hx
        constructor <;> linarith [h1.1, h1.2, h2.1, h2.2]
      exact ⟨one _ _ _ ha.2.1 hb.2.1 c1, one _ _ _ ha.2.2.1 hb.2.2.1 c2, one _ _ _ ha.2.2.2 hb.2.2.2 c3⟩
    · exact ih (fun e he => hL e (List.mem_cons_of_mem _ he)) c hs

/-- **C122** All components are valid: strictly between 0 and 1. -/
theorem C122_valid {fl : K → K} (hf : Spec.RelError fl) (vals : ℤ) (h0 : 0 ≤ vals) (hv : vals ≤ 10 ^ 9) :
    ∃ cs, viridis fl vals = .ok cs ∧ ∀ c ∈ cs, (0 < c.1 ∧ c.1 < 1) ∧ (0 < c.2.1 ∧ c.2.1 < 1) ∧ (0 < c.2.2 ∧ c.2.2 < 1) := by
  obtain ⟨cs, h, hb⟩ := C122_blends hf vals h0 hv
  exact ⟨cs, h, blends_valid hb (by decide) (by norm_num)⟩

/-- **C122** From `-8` downwards a negative number is refused with a `ValueError`. -/
theorem C122_negative {fl : K → K} (hf : Spec.RelError fl) (vals : ℤ) (h0 : vals ≤ -8) (hv : -10 ^ 9 ≤ vals) :
    viridis fl vals = .error .valueError := by
  have h256 : fl 256 ≠ 0 := by
    have := rel_int hf 256 (by norm_num)
    rw [Int.cast_ofNat] at this
    exact this.ne_zero (by norm_num) (by norm_num)
  rw [viridis_eq fl h256]
  have h2 := abs_le.1 (points_close hf 0 13 vals (by norm_num) (by norm_num) (by norm_num)
    (by rw [abs_of_nonpos (by omega)]; omega))
  have hv' : (vals : K) ≤ -8 := by exact_mod_cast h0
  have hx : points fl 0 13 vals ≤ -1 := by norm_num at h2; linarith
  have ht : truncZ (points fl 0 13 vals) < 0 := by
    unfold truncZ
    rw [if_neg (by linarith)]
    have : ⌈points fl 0 13 vals⌉ ≤ -1 := Int.ceil_le.2 (by push_cast; exact hx)
    omega
  have hs : @segment K (roundedOps fl) vals (entryOf fl (0, 255, 200, 100)) (entryOf fl (13, 255, 153, 51))
      = .error .valueError := by
    unfold segment
    simp only [rd_sub, rd_ofInt, rd_mul, rd_toInt]
    have e : truncZ (fl (fl ((entryOf fl (13, 255, 153, 51)).pos - (entryOf fl (0, 255, 200, 100)).pos) * fl (vals : K)))
        = truncZ (points fl 0 13 vals) := rfl
    rw [e]
    change (do
      let rs ← @linspace K (roundedOps fl) _ _ (truncZ (points fl 0 13 vals))
      let gs ← @linspace K (roundedOps fl) _ _ (truncZ (points fl 0 13 vals))
      let bs ← @linspace K (roundedOps fl) _ _ (truncZ (points fl 0 13 vals))
      return rs.zip (gs.zip bs) : Py _) = _
    have el : ∀ a b : K, @linspace K (roundedOps fl) a b (truncZ (points fl 0 13 vals)) = .error .valueError :=
      fun a b => by unfold linspace; rw [if_pos ht]
    rw [el]
    rfl
  unfold viridisExtended
  simp only [List.map_cons]
  unfold segments
  rw [hs]
  rfl

end

/-- **C122** is violated by the default: 596 colours are returned in double
precision although 600 are requested (and exact arithmetic would give 600). -/
theorem C122_default_violated : ∃ cs, viridis rne 600 = .ok cs ∧ cs.length = 596 := by
  have h : (viridis rne 600).map List.length = .ok 596 := by decide +kernel
  cases e : viridis rne 600 with
  | error x => rw [e] at h; exact absurd h (by simp [Except.map])
  | ok cs =>
    rw [e] at h
    refine ⟨cs, rfl, ?_⟩
    simpa [Except.map] using h

/-! The hypotheses hold for rounding to double precision and for exact arithmetic -/

example : ∃ cs, viridis rne 600 = .ok cs ∧ (600 : ℤ) - 15 ≤ cs.length ∧ (cs.length : ℤ) ≤ 600 :=
  C122_number_partial relError_rne 600 (by norm_num) (by norm_num)

example : ∃ cs, viridis (id : ℚ → ℚ) 600 = .ok cs ∧ (cs.length : ℤ) = 600 :=
  C122_number_exact 600 (by norm_num) (by norm_num) (by norm_num)

/-- the first colour of the map, and the colour half way to the second table entry -/
example : (viridis (id : ℚ → ℚ) 200).map (fun cs => (cs[0]?, cs[13]?))
    = .ok (some (255 / 256, 200 / 256, 100 / 256), some (255 / 256, 353 / 512, 151 / 512)) := by decide +kernel

example : ∃ cs, viridis rne 600 = .ok cs ∧ Spec.Blends (1 / 2 ^ 48) (1 / 10 ^ 4) 600 viridisExtended cs :=
  C122_blends relError_rne 600 (by norm_num) (by norm_num)

example : viridis rne (-8) = .error .valueError := C122_negative relError_rne (-8) (by norm_num) (by norm_num)

example : ∃ cs, viridis (id : ℚ → ℚ) 200 = .ok cs ∧ Spec.Blends 0 0 200 viridisExtended cs :=
  C122_exact 200 (by norm_num) (by norm_num)

example : ∃ cs, viridis rne 600 = .ok cs ∧ ∀ c ∈ cs, (0 < c.1 ∧ c.1 < 1) ∧ (0 < c.2.1 ∧ c.2.1 < 1) ∧ (0 < c.2.2 ∧ c.2.2 < 1) :=
  C122_valid relError_rne 600 (by norm_num) (by norm_num)

end Verif.Props
