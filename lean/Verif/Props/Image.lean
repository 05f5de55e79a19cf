import Verif.Model.Image
import Verif.Props.MovieFile
import Verif.Props.Plot

/-!
# C125: images of dictionaries and files
-/

set_option linter.unusedSectionVars false

namespace Verif.Props

open H5IO H5 Run Movie Plot Image

section

variable {K : Type} [Field K] [LinearOrder K] [IsStrictOrderedRing K] [FloorRing K]

/-- the axis shows the entry `e` of the dictionary: its key is the title, its values are drawn, an image with the colour
limits `clim` -/
def ShowsEntry (clim : Option (K × K)) (e : String × Data K) (p : Panel K) : Prop :=
  p.title = e.1 ∧ match e.2 with
    | .line l => p.drawn = .curve l
    | .image a => p.drawn = .image a clim
    | .other _ => False

/-- `v` is the smallest range that contains 0 and all numbers of `l` -/
def IsRange (l : List K) (v : K × K) : Prop :=
  (∀ x ∈ l, v.1 ≤ x ∧ x ≤ v.2) ∧ (v.1 ≤ 0 ∧ 0 ≤ v.2) ∧ (v.1 = 0 ∨ v.1 ∈ l) ∧ (v.2 = 0 ∨ v.2 ∈ l)

private theorem drawEntry_spec {label : String} {data : Data K} (hd : ∀ k, data ≠ .other k) (hv : data.values ≠ [])
    {l : List K} {v : K × K} (h : IsRange l v) :
    ∃ p v', drawEntry label data v = .ok (p, v') ∧ ShowsEntry none (label, data) p ∧ IsRange (l ++ data.values) v' := by
  obtain ⟨lo, hlo⟩ := Option.ne_none_iff_exists'.1 (fun h => hv (List.min?_eq_none_iff.1 h))
  obtain ⟨hi, hhi⟩ := Option.ne_none_iff_exists'.1 (fun h => hv (List.max?_eq_none_iff.1 h))
  have hr : IsRange (l ++ data.values) (min lo v.1, max hi v.2) := by
    have m1 := (List.min?_eq_some_iff.1 hlo)
    have m2 := (List.max?_eq_some_iff.1 hhi)
    obtain ⟨h1, h2, h3, h4⟩ := h
    refine ⟨fun x hx => ?_, ⟨(min_le_right _ _).trans h2.1, h2.2.trans (le_max_right _ _)⟩, ?_, ?_⟩
    · rcases List.mem_append.1 hx with hx | hx
      · exact ⟨(min_le_right _ _).trans (h1 x hx).1, (h1 x hx).2.trans (le_max_right _ _)⟩
      · exact ⟨(min_le_left _ _).trans (m1.2 x hx), (m2.2 x hx).trans (le_max_left _ _)⟩
    · rcases min_choice lo v.1 with e | e
      · exact .inr (by simp only [e]; exact List.mem_append_right _ m1.1)
      · simp only [e]
        exact h3.imp id fun h => List.mem_append_left _ h
    · rcases max_choice hi v.2 with e | e
      · exact .inr (by simp only [e]; exact List.mem_append_right _ m2.1)
      · simp only [e]
        exact h4.imp id fun h => List.mem_append_left _ h
  unfold drawEntry
  cases data with
  | line d => exact ⟨⟨label, .curve d⟩, _, by simp only [hlo, hhi]; rfl, ⟨rfl, rfl⟩, hr⟩
  | image a => exact ⟨⟨label, .image a none⟩, _, by simp only [hlo, hhi]; rfl, ⟨rfl, rfl⟩, hr⟩
  | other k => exact absurd rfl (hd k)

private theorem drawAll_spec (dic : List (String × Data K)) :
    ∀ (l : List K) (v : K × K), (∀ e ∈ dic, (∀ k, e.2 ≠ .other k) ∧ e.2.values ≠ []) → IsRange l v →
    ∃ ps v', drawAll dic v = .ok (ps, v') ∧ List.Forall₂ (ShowsEntry none) dic ps ∧
      IsRange (l ++ dic.flatMap fun e => e.2.values) v' := by
  induction dic with
  | nil => exact fun l v _ h => ⟨[], v, rfl, .nil, by simpa using h⟩
  | cons e dic ih =>
    obtain ⟨label, data⟩ := e
    intro l v hd h
    obtain ⟨p, v1, a1, a2, a3⟩ := drawEntry_spec (label := label) (hd (label, data) (by simp)).1 (hd _ (by simp)).2 h
    obtain ⟨ps, v2, b1, b2, b3⟩ := ih _ v1 (fun x hx => hd x (by simp [hx])) a3
    refine ⟨p :: ps, v2, ?_, .cons a2 b2, ?_⟩
    · unfold drawAll
      rw [a1]
      simp only [Py.ok_bind, b1]
      rfl
    · rw [List.flatMap_cons, ← List.append_assoc]
      exact b3

/-- **C125, dictionaries.**  `plot_dict` shows every entry of a dictionary of at least two arrays, in order, with its key
as title.  Without `couple_cbars` every image has its own limits; with `couple_cbars` all images have the same limits:
the smallest range that contains 0 and the values of all entries. -/
theorem C125_dict_partial (dic : List (String × Data K)) (h2 : 2 ≤ dic.length)
    (hd : ∀ e ∈ dic, (∀ k, e.2 ≠ .other k) ∧ e.2.values ≠ []) (couple_cbars : Bool) :
    ∃ (ps : List (Panel K)) (v : K × K), plot_dict dic couple_cbars = .ok ps ∧
      IsRange (dic.flatMap fun e => e.2.values) v ∧
      List.Forall₂ (ShowsEntry (if couple_cbars then some v else none)) dic ps := by
  obtain ⟨ps, v, a1, a2, a3⟩ := drawAll_spec dic [] (0, 0) hd ⟨by simp, by simp, by simp, by simp⟩
  rw [List.nil_append] at a3
  have hp : plot_dict dic couple_cbars = .ok (if couple_cbars then ps.map (setClim v) else ps) := by
    unfold plot_dict
    rw [if_neg (by omega), if_neg (by omega), a1]
    rfl
  refine ⟨_, v, hp, a3, ?_⟩
  cases couple_cbars with
  | false => exact a2
  | true =>
    simp only [if_true]
    rw [List.forall₂_map_right_iff]
    refine a2.imp fun e p h => ?_
    obtain ⟨ht, h⟩ := h
    obtain ⟨label, data⟩ := e
    obtain ⟨t, d⟩ := p
    cases data with
    | line l => simp only at h ht; subst h ht; exact ⟨rfl, rfl⟩
    | image a => simp only at h ht; subst h ht; exact ⟨rfl, rfl⟩
    | other k => exact h.elim

/-- **C125 is violated for a dictionary with one entry**: nothing is shown, but a `TypeError` is raised. -/
theorem C125_single_violated (e : String × Data K) (couple_cbars : Bool) : plot_dict [e] couple_cbars = .error .typeError := rfl

end

section

attribute [local instance] exactOps

variable {K : Type} [Field K] [LinearOrder K] [IsStrictOrderedRing K] [FloorRing K]

/-- the titles of the three fields -/
def fieldTitles : List (String × String) :=
  [("density", "density ($n$)"), ("omega", "vorticity ($\\Omega$)"), ("phi", "potential ($\\phi$)")]

/-- the axes show frame `j` of the three fields, each with its own colour limits; with `zero_omega` the mean of the
vorticity is removed -/
def ShowsFields (hf : String → Option (List (Arr K))) (zero_omega : Bool) (j : ℕ) (ps : List (Panel K)) : Prop :=
  List.Forall₂ (fun e p => p.title = e.2 ∧ ∃ ds arr, hf e.1 = some ds ∧ ds[j]? = some arr ∧
    p.drawn = .image (if zero_omega = true ∧ e.1 = "omega" then arr.map (· - arr.mean) else arr) none) fieldTitles ps

private theorem entries_ne {a : Arr K} (h : 0 < a.h ∧ 0 < a.w) : entries a ≠ [] := by
  unfold entries
  intro h0
  have := List.flatMap_eq_nil_iff.1 h0 ⟨0, h.1⟩ (List.mem_finRange _)
  rw [List.map_eq_nil_iff, List.finRange_eq_nil_iff] at this
  omega

private theorem figure_spec (f : H5 K K) (n : ℕ) (hF : HasFrames (images f) ["density", "omega", "phi"] n) (t init fd : K)
    (hi : init = Timetrace.value ((f.attrs "initial_time").getD (.int 0))) (hfd : f.attrs "frame_dt" = some (.num fd))
    (hd : 0 < fd) (zero_omega ticks : Bool) (h1 : -(n : ℤ) ≤ ⌊(t - init) / fd⌋) (h2 : ⌊(t - init) / fd⌋ < n) :
    ∃ (fig : Figure K) (ds : List (Arr K)) (a : Arr K), figure f t zero_omega ticks = .ok fig ∧
      ShowsFields (images f) zero_omega (⌊(t - init) / fd⌋ % n).toNat fig.panels ∧
      images f "density" = some ds ∧ ds[(⌊(t - init) / fd⌋ % n).toNat]? = some a ∧
      fig.ticks = (List.range 3).map (axisTicks ticks a.h a.w) := by
  obtain ⟨d1, a1, a2, a3⟩ := hF "density" (by simp)
  obtain ⟨d2, b1, b2, b3⟩ := hF "omega" (by simp)
  obtain ⟨d3, c1, c2, c3⟩ := hF "phi" (by simp)
  have key : ∀ d : List (Arr K), d.length = n → ∃ x, d[(⌊(t - init) / fd⌋ % n).toNat]? = some x ∧
      h5row d ⌊(t - init) / fd⌋ = .ok x ∧ x ∈ d := fun d hd => by
    have hlt : (⌊(t - init) / fd⌋ % n).toNat < d.length := by rw [hd]; exact wrap_lt n _ h1 h2
    exact ⟨_, List.getElem?_eq_getElem hlt, h5row_int d n hd _ h1 h2, List.getElem_mem hlt⟩
  obtain ⟨x1, u1, e1, m1⟩ := key d1 a2
  obtain ⟨x2, u2, e2, m2⟩ := key d2 b2
  obtain ⟨x3, u3, e3, m3⟩ := key d3 c2
  have f1 : ∀ (name : String) (d : List (Arr K)) (a : Arr K), images f name = some d → h5row d ⌊(t - init) / fd⌋ = .ok a →
      frame f ⌊(t - init) / fd⌋ name = .ok (name, a) := fun name d a h h' => by
    unfold frame
    rw [h]
    simp only [Py.ok_bind, h']
    rfl
  have hm : ["density", "omega", "phi"].mapM (frame f ⌊(t - init) / fd⌋) =
      .ok [("density", x1), ("omega", x2), ("phi", x3)] := by
    simp only [List.mapM_cons, List.mapM_nil, f1 _ _ _ a1 e1, f1 _ _ _ b1 e2, f1 _ _ _ c1 e3, Py.ok_bind]
    rfl
  have hc : [("density", x1), ("omega", x2), ("phi", x3)].map (centre zero_omega) =
      [("density", x1), ("omega", if zero_omega = true then x2.map (· - x2.mean) else x2), ("phi", x3)] := by
    cases zero_omega <;> simp [centre]
  have hren : ∀ x y z : Arr K, renamed [("density", x), ("omega", y), ("phi", z)] [] =
      .ok [("density ($n$)", x), ("vorticity ($\\Omega$)", y), ("potential ($\\phi$)", z)] := fun x y z => by
    have l1 : latex_format "density" = .ok "density ($n$)" := by decide +kernel
    have l2 : latex_format "omega" = .ok "vorticity ($\\Omega$)" := by decide +kernel
    have l3 : latex_format "phi" = .ok "potential ($\\phi$)" := by decide +kernel
    simp only [renamed, l1, l2, l3, Py.ok_bind]
    rfl
  obtain ⟨ps, v, p1, -, p3⟩ := C125_dict_partial [("density ($n$)", .image x1), ("vorticity ($\\Omega$)",
    .image (if zero_omega = true then x2.map (· - x2.mean) else x2)), ("potential ($\\phi$)", .image x3)]
    (by simp) (by
      intro e he
      simp only [List.mem_cons, List.not_mem_nil, or_false] at he
      rcases he with rfl | rfl | rfl
      · exact ⟨nofun, entries_ne (a3 _ m1)⟩
      · refine ⟨nofun, entries_ne ?_⟩
        have := b3 x2 m2
        split_ifs <;> exact this
      · exact ⟨nofun, entries_ne (c3 _ m3)⟩) false
  refine ⟨⟨ps, _⟩, d1, x1, ?_, ?_, a1, u1, rfl⟩
  · unfold figure RunProperties.attr
    rw [hfd, ← hi]
    have hfo : Timetrace.frameOf (t - init) fd = .ok ⌊(t - init) / fd⌋ := by
      unfold Timetrace.frameOf
      exact if_neg hd.ne'
    simp only [Py.ok_bind, Timetrace.value, hfo, hm, hc, hren, List.map_cons, List.map_nil, p1]
    rfl
  · unfold ShowsFields fieldTitles
    obtain ⟨q1, q2, q3, q4⟩ : ∃ q1 q2 q3, ps = [q1, q2, q3] := by
      have := p3.length_eq
      match ps, this with
      | [q1, q2, q3], _ => exact ⟨q1, q2, q3, rfl⟩
    subst q4
    simp only [List.forall₂_cons, ShowsEntry, Bool.false_eq_true, if_false] at p3
    obtain ⟨⟨s1, s2⟩, ⟨s3, s4⟩, ⟨s5, s6⟩, -⟩ := p3
    refine .cons ⟨s1, d1, _, a1, u1, ?_⟩ (.cons ⟨s3, d2, _, b1, u2, ?_⟩
      (.cons ⟨s5, d3, _, c1, u3, ?_⟩ .nil))
    · rw [s2, if_neg (by simp)]
    · rw [s4]; cases zero_omega <;> simp
    · rw [s6, if_neg (by simp)]

private theorem main_spec {path : String} {σ : St K K} {f : H5 K K} (hf : σ.fs path = some f) {t : K} {text : List Char}
    {save_types : List (List Char)} {zero_omega ticks : Bool} {fig : Figure K}
    (h : figure f t zero_omega ticks = .ok fig) :
    ∃ stem, Image.main path t text save_types zero_omega ticks σ = (.ok (fig, save_types.map (stem ++ ·)), σ) := by
  refine ⟨(replaceAll ".h5".toList ".jpg".toList path.toList ++ ("_t=".toList ++ text)).take ((replaceAll ".h5".toList
    ".jpg".toList path.toList ++ ("_t=".toList ++ text)).length - 4), ?_⟩
  unfold Image.main
  rw [IOM.bind_ok (x := ()) (σ' := σ) (by unfold openR; simp only [hf]),
    IOM.bind_ok (x := f) (σ' := σ) (by unfold content; simp only [hf]),
    IOM.bind_ok (x := fig) (σ' := σ) (by unfold IOM.lift; rw [h])]
  rfl

/-- **C125, files with fixed time steps.**  For every time `t` from the first frame on and less than one frame after the
last one, the figure shows density, vorticity and potential of the last frame that is not later than `t`, in this
order and with their names; it is saved once for every file type, and the file is not changed. -/
theorem C125_file_partial (path : String) (σ : St K K) (f : H5 K K) (hf : σ.fs path = some f) (init fd : K)
    (hi : init = Timetrace.value ((f.attrs "initial_time").getD (.int 0))) (hfd : f.attrs "frame_dt" = some (.num fd))
    (hd : 0 < fd) (n : ℕ) (hF : HasFrames (images f) ["density", "omega", "phi"] n) (t : K) (h1 : init ≤ t)
    (h2 : t < init + n * fd) (text : List Char) (save_types : List (List Char)) (zero_omega ticks : Bool) :
    ∃ (fig : Figure K) (stem : List Char) (j : ℕ),
      Image.main path t text save_types zero_omega ticks σ = (.ok (fig, save_types.map (stem ++ ·)), σ) ∧
      j < n ∧ init + j * fd ≤ t ∧ t < init + (j + 1) * fd ∧ ShowsFields (images f) zero_omega j fig.panels := by
  obtain ⟨j, g1, g2, g3, g4⟩ := C80_frame_partial t init fd hd n h1 h2
  unfold frameIndex at g1
  rw [id] at g1
  obtain ⟨fig, -, -, p1, p2, -⟩ := figure_spec f n hF t init fd hi hfd hd zero_omega ticks (by omega) (by omega)
  obtain ⟨paths, q1⟩ := main_spec (text := text) (save_types := save_types) hf p1
  refine ⟨fig, paths, j, q1, g2, g3, g4, ?_⟩
  rwa [g1, Int.emod_eq_of_lt (by omega) (by omega), Int.toNat_natCast] at p2

/-- **C125 is violated before the first frame** (a time at most `n` frames earlier): no error, but a frame counted from
the end of the file is shown. -/
theorem C125_before_violated (path : String) (σ : St K K) (f : H5 K K) (hf : σ.fs path = some f) (init fd : K)
    (hi : init = Timetrace.value ((f.attrs "initial_time").getD (.int 0))) (hfd : f.attrs "frame_dt" = some (.num fd))
    (hd : 0 < fd) (n k : ℕ) (hk : 1 ≤ k) (hkn : k ≤ n) (hF : HasFrames (images f) ["density", "omega", "phi"] n)
    (text : List Char) (save_types : List (List Char)) (zero_omega ticks : Bool) :
    ∃ (fig : Figure K) (paths : List (List Char)),
      Image.main path (init - k * fd) text save_types zero_omega ticks σ = (.ok (fig, paths), σ) ∧
      ShowsFields (images f) zero_omega (n - k) fig.panels := by
  have e : ⌊(init - k * fd - init) / fd⌋ = -(k : ℤ) := by
    rw [show (init - k * fd - init) / fd = ((-(k : ℤ) : ℤ) : K) by push_cast; field_simp; ring, Int.floor_intCast]
  obtain ⟨fig, -, -, p1, p2, -⟩ := figure_spec f n hF (init - k * fd) init fd hi hfd hd zero_omega ticks (by rw [e]; omega)
    (by rw [e]; omega)
  obtain ⟨paths, q1⟩ := main_spec (text := text) (save_types := save_types) hf p1
  refine ⟨fig, _, q1, ?_⟩
  have e2 : (-(k : ℤ)) % n = ((n - k : ℕ) : ℤ) := by
    rw [← Int.add_emod_right, Int.emod_eq_of_lt (by omega) (by omega)]
    omega
  rwa [e, e2, Int.toNat_natCast] at p2

/-- **C125 is violated for adaptive time steps**: the recorded times are not used.  If frame `i` was recorded at the time
`t`, earlier than `i` frames of fixed length would take, the figure for `t` shows an earlier frame. -/
theorem C125_adaptive_violated (path : String) (σ : St K K) (f : H5 K K) (hf : σ.fs path = some f) (init fd : K)
    (hi : init = Timetrace.value ((f.attrs "initial_time").getD (.int 0))) (hfd : f.attrs "frame_dt" = some (.num fd))
    (hd : 0 < fd) (times : List K) (_ : f.dsets "time" = some (.rows .one (times.map .num)))
    (hF : HasFrames (images f) ["density", "omega", "phi"] times.length) (i : ℕ) (t : K) (ht : times[i]? = some t)
    (h1 : init ≤ t) (h2 : t < init + i * fd) (text : List Char) (save_types : List (List Char)) (zero_omega ticks : Bool) :
    ∃ (fig : Figure K) (paths : List (List Char)) (j : ℕ),
      Image.main path t text save_types zero_omega ticks σ = (.ok (fig, paths), σ) ∧ j < i ∧
      ShowsFields (images f) zero_omega j fig.panels := by
  obtain ⟨hlt, -⟩ := List.getElem?_eq_some_iff.1 ht
  obtain ⟨fig, paths, j, q1, -, q4, q5, q6⟩ := C125_file_partial path σ f hf init fd hi hfd hd _ hF t h1
    (h2.trans_le (by
      have : (i : K) * fd ≤ times.length * fd := mul_le_mul_of_nonneg_right (by exact_mod_cast hlt.le) hd.le
      linarith)) text save_types zero_omega ticks
  refine ⟨fig, _, j, q1, ?_, q6⟩
  have : (j : K) * fd < i * fd := by linarith
  exact_mod_cast lt_of_mul_lt_mul_right this hd.le

/-- **C125 is violated on grids that are not square**: with `ticks=True` the ticks of the x axis are at the first, the
middle and the last point of the y axis (the first index of the arrays) and vice versa. -/
theorem C125_ticks_violated (f : H5 K K) (init fd : K)
    (hi : init = Timetrace.value ((f.attrs "initial_time").getD (.int 0))) (hfd : f.attrs "frame_dt" = some (.num fd))
    (hd : 0 < fd) (n ny nx : ℕ) (hF : HasFrames (images f) ["density", "omega", "phi"] n)
    (hs : ∀ ds, images f "density" = some ds → ∀ a ∈ ds, a.h = ny ∧ a.w = nx) (t : K) (h1 : init ≤ t)
    (h2 : t < init + n * fd) (zero_omega : Bool) :
    ∃ fig : Figure K, figure f t zero_omega true = .ok fig ∧
      fig.ticks = [⟨[0, ny / 2, ny], some [0, nx / 2, nx]⟩, ⟨[0, ny / 2, ny], none⟩, ⟨[0, ny / 2, ny], none⟩] := by
  obtain ⟨j, g1, g2, g3, g4⟩ := C80_frame_partial t init fd hd n h1 h2
  unfold frameIndex at g1
  rw [id] at g1
  obtain ⟨fig, ds, a, p1, -, p3, p4, p5⟩ := figure_spec f n hF t init fd hi hfd hd zero_omega true (by omega) (by omega)
  obtain ⟨hlt, ha⟩ := List.getElem?_eq_some_iff.1 p4
  obtain ⟨e1, e2⟩ := hs ds p3 a (ha ▸ List.getElem_mem _)
  refine ⟨fig, p1, ?_⟩
  rw [p5, e1, e2]
  rfl

section

variable [Casts K K] [Inhabited K]

/-- the axes show the recorded fields of the frame `fr` -/
def DepictsFields (E : Env K K) (factor : K) (zero_omega : Bool) (fr : K × NS (Cell K)) (ps : List (Panel K)) : Prop :=
  List.Forall₂ (fun e p => p.title = e.2 ∧ ∃ arr, IsFrameRow E factor e.1 fr.1 fr.2 (.arr arr) ∧
    p.drawn = .image (if zero_omega = true ∧ e.1 = "omega" then arr.map (· - arr.mean) else arr) none) fieldTitles ps

private theorem depictsFields_of_shows {E : Env K K} {factor : K} {zero_omega : Bool} {f : H5 K K}
    {frs : List (K × NS (Cell K))}
    (h : ∀ k ∈ fieldList, ∃ ds, images f k = some ds ∧
      List.Forall₂ (fun fr arr => IsFrameRow E factor k fr.1 fr.2 (.arr arr)) frs ds)
    {j : ℕ} {fr : K × NS (Cell K)} (hj : frs[j]? = some fr) {ps : List (Panel K)}
    (hp : ShowsFields (images f) zero_omega j ps) : DepictsFields E factor zero_omega fr ps := by
  refine List.forall₂_iff_get.2 ⟨hp.length_eq, fun i hi hi' => ?_⟩
  obtain ⟨e, ds, arr, a1, a2, a3⟩ := (List.forall₂_iff_get.1 hp).2 i hi hi'
  have hm : (fieldTitles.get ⟨i, hi⟩).1 ∈ fieldList :=
    (by decide : ∀ e ∈ fieldTitles, e.1 ∈ fieldList) _ (List.get_mem _ _)
  obtain ⟨ds', b1, b2⟩ := h _ hm
  obtain rfl : ds = ds' := Option.some.inj (a1.symm.trans b1)
  refine ⟨e, arr, ?_, a3⟩
  obtain ⟨hj1, rfl⟩ := List.getElem?_eq_some_iff.1 hj
  obtain ⟨hj2, rfl⟩ := List.getElem?_eq_some_iff.1 a2
  exact (List.forall₂_iff_get.1 b2).2 j hj1 hj2

/-- **C125 (`run`).**  The figure of the file of a new run recorded from the start, for a time `t` of the simulation:
density, vorticity and potential of a recorded frame, not later than `t` and less than one frame earlier. -/
theorem C125_run_partial {E : Env K K} {a : Args K} {σ : St K K} {hw : Solver K} {ns m : ℕ} {steps : ℤ}
    {S : ℕ → NS (Cell K)} (h : FreshRun E a σ hw ns steps m S) (hns : 1 ≤ ns) (hdt : 0 < a.step_size)
    (hr : a.recording_start_time = 0) (hp : ∀ k ∈ fieldList, k ∉ a.properties) (t : K) (h0 : 0 ≤ t)
    (h1 : t ≤ m * a.step_size) (text : List Char) (save_types : List (List Char)) (zero_omega ticks : Bool) :
    ∃ (fig : Figure K) (stem : List Char) (fr : K × NS (Cell K)),
      Image.main a.output_path t text save_types zero_omega ticks (run E a σ).2
        = (.ok (fig, save_types.map (stem ++ ·)), (run E a σ).2) ∧
      fr ∈ frames a S m ∧ fr.1 ≤ t ∧ t < fr.1 + a.snaps * a.step_size ∧
      DepictsFields E a.downsample_factor zero_omega fr fig.panels := by
  obtain ⟨f, g1, hd, -, -⟩ := C73_run_parameters h
  obtain ⟨f', g1', -, -, -, g2, -⟩ := run_result h
  obtain rfl : f' = f := Option.some.inj (g1'.symm.trans g1)
  obtain ⟨hF, hI⟩ := hasFrames_of_rows h.saves hns (frames_shaped h) fun k hk => g2 k (List.mem_cons_of_mem _ hk) (hp k hk)
  have hfr : frames a S m = (List.range (m / a.snaps + 1)).map (frameAt a S) :=
    frames_from_zero (by rw [hr]; simp [FloatOps.eq, FloatOps.ofInt]) fun it _ _ => by
      rw [hr, exact_time]
      exact decide_eq_true (by positivity)
  have hlen : (frames a S m).length = m / a.snaps + 1 := by rw [hfr]; simp
  have hfd0 : 0 < a.step_size * (a.snaps : K) := mul_pos hdt (by exact_mod_cast h.snaps)
  obtain ⟨fig, stem, j, q1, q2, q3, q4, q5⟩ := C125_file_partial a.output_path (run E a σ).2 f' g1 0 (a.step_size * a.snaps)
    (by rw [hd.initial_time, hr]; rfl) (by rw [hd.frame_dt]; simp [FloatOps.mul, FloatOps.ofInt]) hfd0 _ hF t h0 (by
      rw [hlen, zero_add]
      refine h1.trans_lt ?_
      have : m < (m / a.snaps + 1) * a.snaps := by
        rw [Nat.mul_comm]
        exact Nat.lt_mul_div_succ m h.snaps
      have : (m : K) < ((m / a.snaps + 1 : ℕ) : K) * a.snaps := by exact_mod_cast this
      nlinarith) text save_types zero_omega ticks
  rw [hlen] at q2
  have hget : (frames a S m)[j]? = some (frameAt a S j) := by
    rw [hfr, List.getElem?_map, List.getElem?_range q2]
    rfl
  have ht : (frameAt a S j).1 = j * (a.step_size * a.snaps) := by
    unfold frameAt
    by_cases h0 : j = 0
    · rw [if_pos h0, h0]
      simp [FloatOps.ofInt]
    · rw [if_neg h0, exact_time]
      push_cast
      ring
  refine ⟨fig, stem, _, q1, List.mem_of_getElem? hget, ?_, ?_, depictsFields_of_shows hI hget q5⟩
  · rw [ht]; linarith
  · rw [ht]; linarith

/-- the frames of a run that starts recording between frame `q` and frame `q + 1` -/
theorem frames_late {a : Args K} {S : ℕ → NS (Cell K)} {m q : ℕ} (hdt : 0 < a.step_size) (hs : 0 < a.snaps)
    (h0 : q * (a.snaps * a.step_size) < a.recording_start_time) (hr0 : 0 < a.recording_start_time)
    (h1 : a.recording_start_time ≤ (q + 1) * (a.snaps * a.step_size)) (hm : q * a.snaps ≤ m) :
    frames a S m = (List.range' (q + 1) (m / a.snaps - q)).map fun j =>
      (((j * a.snaps : ℕ) : K) * a.step_size, S (j * a.snaps)) := by
  have hq : q ≤ m / a.snaps := (Nat.le_div_iff_mul_le hs).2 hm
  have hsp : 0 < (a.snaps : K) * a.step_size := mul_pos (by exact_mod_cast hs) hdt
  unfold frames
  rw [if_neg (by simpa [FloatOps.eq, FloatOps.ofInt] using hr0.ne')]
  have e1 : (List.range' 1 m).filter (isRecorded a) =
      ((List.range' 1 m).filter (fun it => it % a.snaps == 0)).filter
        (fun it : ℕ => decide (a.recording_start_time ≤ it * a.step_size)) := by
    rw [List.filter_filter]
    refine List.filter_congr fun it _ => ?_
    unfold isRecorded
    rw [exact_time]
    rfl
  rw [e1, filter_multiples, List.filter_map, List.nil_append, List.map_map]
  have e2 : List.range' 1 (m / a.snaps) = List.range' 1 q ++ List.range' (q + 1) (m / a.snaps - q) := by
    have := List.range'_append (s := 1) (m := q) (n := m / a.snaps - q) (step := 1)
    rw [show q + (m / a.snaps - q) = m / a.snaps by omega, show 1 + 1 * q = q + 1 by omega] at this
    exact this.symm
  rw [e2, List.filter_append]
  have e3 : (List.range' 1 q).filter ((fun it : ℕ => decide (a.recording_start_time ≤ it * a.step_size)) ∘ (· * a.snaps)) = [] := by
    rw [List.filter_eq_nil_iff]
    intro j hj
    rw [List.mem_range'_1] at hj
    simp only [Function.comp_apply, decide_eq_true_eq, not_le]
    refine lt_of_le_of_lt ?_ h0
    push_cast
    rw [mul_assoc]
    exact mul_le_mul_of_nonneg_right (by exact_mod_cast (by omega : j ≤ q)) hsp.le
  have e4 : (List.range' (q + 1) (m / a.snaps - q)).filter
      ((fun it : ℕ => decide (a.recording_start_time ≤ it * a.step_size)) ∘ (· * a.snaps)) =
      List.range' (q + 1) (m / a.snaps - q) := by
    rw [List.filter_eq_self]
    intro j hj
    rw [List.mem_range'_1] at hj
    simp only [Function.comp_apply, decide_eq_true_eq]
    refine h1.trans ?_
    push_cast
    rw [mul_assoc]
    exact mul_le_mul_of_nonneg_right (by exact_mod_cast hj.1) hsp.le
  rw [e3, e4, List.nil_append]
  refine List.map_congr_left fun j _ => ?_
  rw [Function.comp_apply, exact_time]

/-- **C125 is violated for recordings that start between two frames**: the frames are recorded at multiples of their
distance, but the figure counts from `recording_start_time`.  For the time one frame after that start it shows a later
frame, although an earlier one is recorded. -/
theorem C125_late_violated {E : Env K K} {a : Args K} {σ : St K K} {hw : Solver K} {ns m : ℕ} {steps : ℤ}
    {S : ℕ → NS (Cell K)} (h : FreshRun E a σ hw ns steps m S) (hns : 1 ≤ ns) (hdt : 0 < a.step_size) (q : ℕ)
    (h0 : q * (a.snaps * a.step_size) < a.recording_start_time)
    (h1 : a.recording_start_time < (q + 1) * (a.snaps * a.step_size)) (hm : (q + 2) * a.snaps ≤ m)
    (hp : ∀ k ∈ fieldList, k ∉ a.properties) (text : List Char) (save_types : List (List Char)) (zero_omega ticks : Bool) :
    ∃ (fig : Figure K) (paths : List (List Char)) (fr0 fr : K × NS (Cell K)) (t : K),
      t = a.recording_start_time + a.snaps * a.step_size ∧
      Image.main a.output_path t text save_types zero_omega ticks (run E a σ).2 = (.ok (fig, paths), (run E a σ).2) ∧
      fr0 ∈ frames a S m ∧ fr0.1 ≤ t ∧ fr ∈ frames a S m ∧ t < fr.1 ∧
      DepictsFields E a.downsample_factor zero_omega fr fig.panels := by
  obtain ⟨f, g1, hd, -, -⟩ := C73_run_parameters h
  obtain ⟨f', g1', -, -, -, g2, -⟩ := run_result h
  obtain rfl : f' = f := Option.some.inj (g1'.symm.trans g1)
  obtain ⟨hF, hI⟩ := hasFrames_of_rows h.saves hns (frames_shaped h) fun k hk => g2 k (List.mem_cons_of_mem _ hk) (hp k hk)
  have hsp : 0 < (a.snaps : K) * a.step_size := mul_pos (by exact_mod_cast h.snaps) hdt
  have hr0 : 0 < a.recording_start_time := lt_of_le_of_lt (by positivity) h0
  have hfr := frames_late (S := S) hdt h.snaps h0 hr0 h1.le
    (le_trans (Nat.mul_le_mul_right _ (Nat.le_add_right q 2)) hm)
  have hM : q + 2 ≤ m / a.snaps := (Nat.le_div_iff_mul_le h.snaps).2 hm
  have hlen : (frames a S m).length = m / a.snaps - q := by rw [hfr]; simp
  obtain ⟨fig, stem, j, q1, -, q3, q4, q5⟩ := C125_file_partial a.output_path (run E a σ).2 f' g1 a.recording_start_time
    (a.snaps * a.step_size) (by rw [hd.initial_time]; rfl)
    (by rw [hd.frame_dt]; simp [FloatOps.mul, FloatOps.ofInt, mul_comm]) hsp _ hF
    (a.recording_start_time + a.snaps * a.step_size) (by linarith) (by
      rw [hlen]
      have : (2 : K) ≤ ((m / a.snaps - q : ℕ) : K) := by exact_mod_cast (by omega : 2 ≤ m / a.snaps - q)
      nlinarith) text save_types zero_omega ticks
  have hj : j = 1 := by
    have b1 : (j : K) ≤ 1 := le_of_mul_le_mul_right (by linarith) hsp
    have b2 : (1 : K) < j + 1 := lt_of_mul_lt_mul_right (by linarith) hsp.le
    have b1 : j ≤ 1 := by exact_mod_cast b1
    have b2 : 1 < j + 1 := by exact_mod_cast b2
    omega
  subst hj
  have hget : ∀ i, i < 2 → (frames a S m)[i]? =
      some ((((q + 1 + i) * a.snaps : ℕ) : K) * a.step_size, S ((q + 1 + i) * a.snaps)) := fun i hi => by
    rw [hfr, List.getElem?_map, List.getElem?_range' (by omega)]
    simp
  refine ⟨fig, _, _, _, _, rfl, q1, List.mem_of_getElem? (hget 0 (by omega)), ?_, List.mem_of_getElem? (hget 1 (by omega)), ?_,
    depictsFields_of_shows hI (hget 1 (by omega)) q5⟩
  · push_cast
    nlinarith
  · push_cast
    nlinarith

end

end

/-! ### Concrete cases -/

section

attribute [local instance] exactOps demoCasts

example := C125_dict_partial [("a", .line [(1 : ℚ), -2]), ("b", .image (.tab 1 2 fun _ j => (j : ℚ)))] (by simp)
  (by
    intro e he
    simp only [List.mem_cons, List.not_mem_nil, or_false] at he
    rcases he with rfl | rfl
    · exact ⟨nofun, by simp [Data.values]⟩
    · exact ⟨nofun, by decide +kernel⟩) true

example := C125_file_partial "a.h5" (demoMovieSt false 1) (demoMovieFile false 1) rfl 1 (1 / 2) rfl rfl (by norm_num) 3
  (demo_hasFrames _ _) 2 (by norm_num) (by norm_num) "2".toList [".jpg".toList] true false
example := C125_before_violated "a.h5" (demoMovieSt false 1) (demoMovieFile false 1) rfl 1 (1 / 2) rfl rfl (by norm_num) 3 2
  (by norm_num) (by norm_num) (demo_hasFrames _ _) "0".toList [".jpg".toList] true false
example := C125_adaptive_violated "a.h5" (demoMovieSt true 0) (demoMovieFile true 0) rfl 0 (1 / 2) rfl rfl (by norm_num)
  [0, 1 / 3, 1] rfl (demo_hasFrames _ _) 1 (1 / 3) rfl (by norm_num) (by norm_num) "0.3".toList [".jpg".toList] true false
example := C125_ticks_violated (demoMovieFile false 0) 0 (1 / 2) rfl rfl (by norm_num) 3 1 2 (demo_hasFrames _ _)
  (by
    intro ds h a ha
    have e : images (demoMovieFile false 0) "density" = some ([1, 2, 3].map fun x : ℚ => .tab 1 2 fun i j => x * (i + j)) := rfl
    rw [e] at h
    injection h with h
    subst h
    obtain ⟨x, -, rfl⟩ := List.mem_map.1 ha
    exact ⟨rfl, rfl⟩) 1 (by norm_num) (by norm_num) true
example := C125_run_partial demo_fresh4 (by norm_num) (by norm_num [demoArgs]) rfl (by simp [demoArgs]) (3 / 2) (by norm_num)
  (by norm_num [demoArgs]) "1.5".toList [".jpg".toList] true false
/-- recording from time 3/4 on, frames at times 1 and 2: the figure for time 7/4 shows the frame of time 2 -/
example := C125_late_violated (demo_fresh 2 4 (by norm_num) (by decide) (3 / 4) 2 2 (by decide) (by decide) noFiles rfl)
  (by norm_num) (by norm_num [demoArgs]) 0 (by norm_num [demoArgs]) (by norm_num [demoArgs]) (by norm_num [demoArgs])
  (by simp [demoArgs]) "1.75".toList [".jpg".toList] true false

end

end Verif.Props
