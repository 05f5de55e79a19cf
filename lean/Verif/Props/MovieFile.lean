import Verif.Model.MovieFile
import Verif.Props.Movie
import Verif.Props.RunMeta
import Verif.Lemmas.Helpers

/-!
# C123: the movie of a file
-/

set_option linter.unusedSectionVars false

namespace Verif.Props

open H5IO H5 Run Run2 Movie

section

attribute [local instance] exactOps

variable {K : Type} [Field K] [LinearOrder K] [IsStrictOrderedRing K] [FloorRing K]

/-- the picture shows frame `t` of each of the fields `names`, with limits that contain all values -/
def ShowsFrame (hf : String → Option (List (Arr K))) (zero_omega : Bool) (names : List String) (t : ℕ) (p : Picture K) :
    Prop :=
  List.Forall₂ (fun name x => x.1 = name ∧ ∃ ds arr before, hf name = some ds ∧ ds[t]? = some arr ∧
    Shows before x.2 (if zero_omega = true ∧ name = "omega" then arr.map (· - arr.mean) else arr)) names p.axes

/-- the fields `names` have `n` frames, none of them of size 0 -/
def HasFrames (hf : String → Option (List (Arr K))) (names : List String) (n : ℕ) : Prop :=
  ∀ name ∈ names, ∃ ds, hf name = some ds ∧ ds.length = n ∧ ∀ a ∈ ds, 0 < a.h ∧ 0 < a.w

private theorem h5row_nat {β : Type} (ds : List β) (t : ℕ) (ht : t < ds.length) : h5row ds (t : ℤ) = .ok ds[t] := by
  unfold h5row
  simp only
  rw [if_neg (by omega), if_neg (by omega), Int.toNat_natCast, List.getElem?_eq_getElem ht]

private theorem mem_pyRange {a b s t : ℤ} (hs : 1 ≤ s) (ht : t ∈ pyRange a b s) : a ≤ t ∧ t < b := by
  unfold pyRange at ht
  obtain ⟨i, hi, rfl⟩ := List.mem_map.1 ht
  rw [List.mem_range, Int.fdiv_eq_ediv_of_nonneg _ (by omega)] at hi
  have h1 : (i : ℤ) + 1 ≤ (b - a + s - 1) / s := by omega
  have h2 := Int.mul_le_of_le_ediv (by omega) h1
  have h3 : 0 ≤ (i : ℤ) * s := by positivity
  constructor <;> nlinarith

theorem wrap_lt (n : ℕ) (t : ℤ) (h1 : -n ≤ t) (h2 : t < n) : (t % n).toNat < n := by
  have := Int.emod_lt_of_pos t (by omega : (0 : ℤ) < n)
  have := Int.emod_nonneg t (by omega : (n : ℤ) ≠ 0)
  omega

theorem h5row_int {β : Type} (ds : List β) (n : ℕ) (hn : ds.length = n) (t : ℤ) (h1 : -n ≤ t) (h2 : t < n) :
    h5row ds t = .ok (ds[(t % n).toNat]'(by rw [hn]; exact wrap_lt n t h1 h2)) := by
  subst hn
  unfold h5row
  simp only
  by_cases h0 : t < 0
  · have e : (t % (ds.length : ℤ)) = t + ds.length := by
      rw [← Int.add_emod_right, Int.emod_eq_of_lt (by omega) (by omega)]
    rw [if_pos h0, if_neg (by omega)]
    simp only [e]
    rw [List.getElem?_eq_getElem (by omega)]
  · have e : (t % (ds.length : ℤ)) = t := Int.emod_eq_of_lt (by omega) (by omega)
    rw [if_neg h0, if_neg (by omega)]
    simp only [e]
    rw [List.getElem?_eq_getElem (by omega)]

private theorem animate_spec (hf : String → Option (List (Arr K))) (zero_omega : Bool) (names : List String) (n : ℕ) (t : ℤ)
    (h : HasFrames hf names n) (ht : -n ≤ t ∧ t < n) (axes : List (String × Axis K)) (hn : axes.map (·.1) = names) :
    ∃ axes', animate hf zero_omega t axes = .ok axes' ∧ axes'.map (·.1) = names ∧
      ∀ c, ShowsFrame hf zero_omega names (t % n).toNat ⟨c, axes'⟩ := by
  have hw := wrap_lt n t ht.1 ht.2
  obtain ⟨axes', h1, h2⟩ := animate_ok hf zero_omega t axes (by
    intro x hx
    obtain ⟨ds, e1, e2, e3⟩ := h x.1 (by rw [← hn]; exact List.mem_map_of_mem hx)
    exact ⟨ds, _, e1, h5row_int ds n e2 t ht.1 ht.2, e3 _ (List.getElem_mem _)⟩)
  refine ⟨axes', h1, by rw [h2, hn], fun c => ?_⟩
  have h3 := C67_movie hf zero_omega [t] axes [axes'] (by
    unfold animation
    rw [h1]
    rfl)
  have h4 := (List.forall₂_cons.1 h3).1
  unfold ShowsFrame
  rw [← hn, List.forall₂_map_left_iff]
  refine (List.forall₂_iff_get.2 ⟨h4.length_eq, fun i hi hi' => ?_⟩)
  obtain ⟨e, ds, arr, a1, a2, a3⟩ := (List.forall₂_iff_get.1 h4).2 i hi hi'
  have hb : axes.get ⟨i, hi⟩ ∈ axes := List.get_mem _ _
  obtain ⟨ds', b1, b2, -⟩ := h (axes.get ⟨i, hi⟩).1 (by rw [← hn]; exact List.mem_map_of_mem hb)
  rw [e] at b1 ⊢
  obtain rfl : ds = ds' := Option.some.inj (a1.symm.trans b1)
  rw [h5row_int ds n b2 t ht.1 ht.2] at a2
  injection a2 with a2
  exact ⟨rfl, ds, arr, _, a1, by rw [List.getElem?_eq_getElem (by omega), a2], a3⟩

private theorem animation_spec (hf : String → Option (List (Arr K))) (zero_omega : Bool) (names : List String) (n : ℕ)
    (h : HasFrames hf names n) (caption : ℤ → Py K) (capt : ℤ → K) (ts : List ℤ) :
    ∀ axes : List (String × Axis K), axes.map (·.1) = names → (∀ t ∈ ts, (-n ≤ t ∧ t < n) ∧ caption t = .ok (capt t)) →
    ∃ states, animation hf zero_omega ts axes = .ok states ∧ ts.mapM caption = .ok (ts.map capt) ∧
      List.Forall₂ (fun (t : ℤ) p => p.caption = capt t ∧ ShowsFrame hf zero_omega names (t % n).toNat p) ts
        (List.zipWith Picture.mk (ts.map capt) states) := by
  induction ts with
  | nil => exact fun _ _ _ => ⟨[], rfl, rfl, .nil⟩
  | cons t ts ih =>
    intro axes hn ht
    obtain ⟨axes', h1, h2, h3⟩ := animate_spec hf zero_omega names n t h (ht t (by simp)).1 axes hn
    obtain ⟨states, i1, i2, i3⟩ := ih axes' h2 fun u hu => ht u (by simp [hu])
    refine ⟨axes' :: states, ?_, ?_, ?_⟩
    · unfold animation
      rw [h1]
      simp only [i1, Py.ok_bind]
    · simp only [List.mapM_cons]
      rw [(ht t (by simp)).2, i2]
      rfl
    · simp only [List.map_cons, List.zipWith_cons_cons]
      exact .cons ⟨rfl, h3 _⟩ i3

private theorem shoot_spec (hf : String → Option (List (Arr K))) (zero_omega : Bool) (names : List String) (n : ℕ)
    (h : HasFrames hf names n) (caption : ℤ → Py K) (capt : ℤ → K) (ts : List ℤ) (axes : List (String × Axis K))
    (hn : axes.map (·.1) = names) (ht : ∀ t ∈ ts, (-n ≤ t ∧ t < n) ∧ caption t = .ok (capt t)) :
    ∃ ps, shoot hf zero_omega caption ts axes = .ok ps ∧
      List.Forall₂ (fun (t : ℤ) p => p.caption = capt t ∧ ShowsFrame hf zero_omega names (t % n).toNat p) ts ps := by
  cases ts with
  | nil => exact ⟨[], rfl, .nil⟩
  | cons t ts =>
    obtain ⟨axes', h1, h2, -⟩ := animate_spec hf zero_omega names n t h (ht t (by simp)).1 axes hn
    obtain ⟨states, i1, i2, i3⟩ := animation_spec hf zero_omega names n h caption capt (t :: ts) axes' h2 ht
    refine ⟨_, ?_, i3⟩
    unfold shoot
    simp only [List.head?_cons]
    rw [h1]
    simp only [Py.ok_bind]
    rw [i1]
    simp only [Py.ok_bind]
    rw [i2]
    rfl

private theorem setupAxes_spec (hf : String → Option (List (Arr K))) (a b c : String) (rest : List String) (n : ℕ) (hn : 1 ≤ n)
    (h : HasFrames hf [a, b, c] n) :
    ∃ axes, setupAxes hf (a :: b :: c :: rest) = .ok axes ∧ axes.map (·.1) = [a, b, c] := by
  have one : ∀ (i : ℕ) name, (a :: b :: c :: rest)[i]? = some name → name ∈ [a, b, c] →
      ∃ ax, setupAxis hf (a :: b :: c :: rest) i = .ok (name, ax) := by
    intro i name hi hm
    obtain ⟨ds, e1, e2, e3⟩ := h name hm
    have hr := h5row_nat ds 0 (by omega)
    obtain ⟨p1, p2⟩ := e3 _ (List.getElem_mem (by omega : 0 < ds.length))
    obtain ⟨M, hM⟩ := npMax_ok _ p1 p2
    obtain ⟨m, hm⟩ := npMin_ok _ p1 p2
    refine ⟨⟨ds[0], (m, M)⟩, ?_⟩
    unfold setupAxis
    rw [hi]
    simp only
    rw [Py.ok_bind, e1]
    simp only [Py.ok_bind]
    rw [show (0 : ℤ) = ((0 : ℕ) : ℤ) from rfl, hr]
    simp only [Py.ok_bind]
    rw [hm, hM]
    rfl
  obtain ⟨x, hx⟩ := one 0 a rfl (by simp)
  obtain ⟨y, hy⟩ := one 1 b rfl (by simp)
  obtain ⟨z, hz⟩ := one 2 c rfl (by simp)
  refine ⟨[(a, x), (b, y), (c, z)], ?_, rfl⟩
  unfold setupAxes
  rw [List.mapM_cons, List.mapM_cons, List.mapM_cons, hx, hy, hz]
  rfl

private theorem title_spec (f : H5 K K) (v : String → Attr K)
    (h : ∀ k ∈ ["c1", "k0", "grid_pts", "dt", "N", "nu"], f.attrs k = some (v k)) :
    generate_title f = .ok (["c1", "k0", "grid_pts", "dt", "N", "nu"].map fun k => (k, v k)) := by
  unfold generate_title
  refine Helpers.mapM_ok _ _ _ fun k hk => ?_
  unfold RunProperties.attr
  rw [h k hk]
  rfl

/-- What the movie of a file with fixed time steps shows, if its attribute `initial_time` is `m * frame_dt` (or missing,
then `m = 0`) and `m` is at most the number of frames `n`. -/
private theorem movie_offset (path : String) (σ : St K K) (f : H5 K K) (hf : σ.fs path = some f)
    (ha : f.attrs "adaptive_step_size" = some (.bool false)) (v : String → Attr K)
    (hv : ∀ k ∈ ["c1", "k0", "grid_pts", "dt", "N", "nu"], f.attrs k = some (v k)) (fd : K)
    (hfd : f.attrs "frame_dt" = some (.num fd)) (hfd0 : 0 < fd) (n : ℕ) (hn : 1 ≤ n) (m : ℕ) (hmn : m ≤ n)
    (hi : (f.attrs "initial_time" = none ∧ m = 0) ∨ f.attrs "initial_time" = some (.num (m * fd)))
    (a b c : String) (rest : List String) (hds : HasFrames (images f) [a, b, c] n) (zero_omega : Bool)
    (min_fps : ℤ) (hm : min_fps ≠ 0) (speed : K) :
    ∃ (film : Film K) (s : ℕ), create_movie path 0 none zero_omega (a :: b :: c :: rest) min_fps speed σ = (.ok film, σ) ∧
      film.title = (["c1", "k0", "grid_pts", "dt", "N", "nu"].map fun k => (k, v k)) ∧
      (s : ℤ) = max 1 ((truncZ (speed / fd)).fdiv min_fps) ∧ film.fps = (truncZ (speed / fd) : K) / s ∧
      List.Forall₂ (fun (t : ℤ) p => p.caption = (t : K) * fd ∧ ShowsFrame (images f) zero_omega [a, b, c] (t % n).toNat p)
        (pyRange (-m) (n - m) s) film.pictures := by
  obtain ⟨axes, hax, hnames⟩ := setupAxes_spec (images f) a b c rest n hn hds
  obtain ⟨dsa, hdsa, hlen, -⟩ := hds a (by simp)
  obtain ⟨p, p1, p2, p3, p4, p5⟩ := frames_offset n m fd speed hfd0 min_fps hm
  obtain ⟨s, hs⟩ : ∃ s : ℕ, p.step = s := ⟨_, (Int.toNat_of_nonneg (by omega)).symm⟩
  have hs1 : 1 ≤ s := by omega
  rw [hs] at p3 p4 p5
  have hplan : equallySpaced n fd ((f.attrs "initial_time").map attrValue) 0 none speed min_fps = .ok p := by
    rw [← p1]
    rcases hi with ⟨h, rfl⟩ | h
    · rw [h]
      simp [equallySpaced, ex_ofInt]
    · rw [h]
      simp [attrValue]
  obtain ⟨ps, q1, q2⟩ := shoot_spec (images f) zero_omega [a, b, c] n hds
    (fun t => .ok (FloatOps.mul (FloatOps.ofInt t) fd)) (fun t => (t : K) * fd) (pyRange (-m) (n - m) s) axes hnames (by
      intro t ht
      have := mem_pyRange (by omega) ht
      refine ⟨by omega, ?_⟩
      simp [ex_mul, ex_ofInt])
  refine ⟨⟨_, p.fps, ps⟩, s, ?_, rfl, p4, by rw [p5]; simp, q2⟩
  unfold create_movie
  rw [IOM.bind_ok (x := ()) (σ' := σ) (by unfold openR; simp only [hf]),
    IOM.bind_ok (x := f) (σ' := σ) (by unfold content; simp only [hf]),
    IOM.bind_ok (x := .bool false) (σ' := σ) (by unfold RunProperties.attr IOM.lift; rw [ha])]
  simp only [attrTruth]
  unfold IOM.lift create_movie_equally_spaced
  rw [title_spec f v hv]
  simp only [Py.ok_bind, List.getElem?_cons_zero, hdsa]
  unfold RunProperties.attr
  simp only [hfd, Py.ok_bind, hlen]
  rw [show attrValue (Attr.num fd) = fd from rfl, hplan]
  simp only [Py.ok_bind, hax]
  rw [p3, q1]
  rfl

/-- **C123**, file with fixed time steps that starts at time 0.  The movie shows every `s`-th frame from the first one
on, in order; the captions are the times `j * frame_dt` of these frames; the title has the parameters of the file; the
file system stays as it is. -/
theorem C123_equally_spaced (path : String) (σ : St K K) (f : H5 K K) (hf : σ.fs path = some f)
    (ha : f.attrs "adaptive_step_size" = some (.bool false)) (v : String → Attr K)
    (hv : ∀ k ∈ ["c1", "k0", "grid_pts", "dt", "N", "nu"], f.attrs k = some (v k)) (fd : K)
    (hfd : f.attrs "frame_dt" = some (.num fd)) (hfd0 : 0 < fd)
    (hi : f.attrs "initial_time" = none ∨ f.attrs "initial_time" = some (.num 0))
    (n : ℕ) (hn : 1 ≤ n) (a b c : String) (rest : List String) (hds : HasFrames (images f) [a, b, c] n) (zero_omega : Bool)
    (min_fps : ℤ) (hm : min_fps ≠ 0) (speed : K) :
    ∃ (film : Film K) (s : ℕ), create_movie path 0 none zero_omega (a :: b :: c :: rest) min_fps speed σ = (.ok film, σ) ∧
      film.title = (["c1", "k0", "grid_pts", "dt", "N", "nu"].map fun k => (k, v k)) ∧
      (s : ℤ) = max 1 ((truncZ (speed / fd)).fdiv min_fps) ∧ film.fps = (truncZ (speed / fd) : K) / s ∧
      List.Forall₂ (fun i p => p.caption = ((s * i : ℕ) : K) * fd ∧ ShowsFrame (images f) zero_omega [a, b, c] (s * i) p)
        (List.range ((n - 1) / s + 1)) film.pictures := by
  obtain ⟨film, s, h1, h2, h3, h4, h5⟩ := movie_offset path σ f hf ha v hv fd hfd hfd0 n hn 0 (by omega)
    (hi.imp (fun h => ⟨h, rfl⟩) fun h => by rw [h]; simp) a b c rest hds zero_omega min_fps hm speed
  refine ⟨film, s, h1, h2, h3, h4, ?_⟩
  have hs1 : 1 ≤ s := by
    have : (1 : ℤ) ≤ s := by rw [h3]; exact le_max_left _ _
    omega
  rw [Nat.cast_zero, neg_zero, sub_zero, pyRange_zero n s hn hs1, List.forall₂_map_left_iff] at h5
  refine List.forall₂_iff_get.2 ⟨h5.length_eq, fun i hi hi' => ?_⟩
  obtain ⟨c1, c2⟩ := (List.forall₂_iff_get.1 h5).2 i hi hi'
  simp only [List.get_eq_getElem, List.getElem_range, Int.cast_natCast] at c1 c2 ⊢
  refine ⟨c1, ?_⟩
  have hi2 : i < (n - 1) / s + 1 := by simpa using hi
  have hlt : s * i ≤ n - 1 := le_trans (Nat.mul_le_mul_left s (by omega)) (Nat.mul_div_le _ _)
  rwa [Int.emod_eq_of_lt (by positivity) (by exact_mod_cast (by omega : s * i < n)), Int.toNat_natCast] at c2

/-- **C123 is violated for files that start later**, which is what `run` writes with `recording_start_time > 0`.  The
file starts at the time `m * frame_dt` with `1 ≤ m`, so the frame `j` has the time `(m + j) * frame_dt`.  If `m` is at
most the number `n` of frames, the movie begins with the frame `n - m` instead of frame 0, labelled with the negative
time `-m * frame_dt`.  -/
theorem C123_late_violated (path : String) (σ : St K K) (f : H5 K K) (hf : σ.fs path = some f)
    (ha : f.attrs "adaptive_step_size" = some (.bool false)) (v : String → Attr K)
    (hv : ∀ k ∈ ["c1", "k0", "grid_pts", "dt", "N", "nu"], f.attrs k = some (v k)) (fd : K)
    (hfd : f.attrs "frame_dt" = some (.num fd)) (hfd0 : 0 < fd) (n : ℕ) (m : ℕ) (hm1 : 1 ≤ m) (hmn : m ≤ n)
    (hi : f.attrs "initial_time" = some (.num (m * fd)))
    (a b c : String) (rest : List String) (hds : HasFrames (images f) [a, b, c] n) (zero_omega : Bool)
    (min_fps : ℤ) (hm : min_fps ≠ 0) (speed : K) :
    ∃ (film : Film K) (p : Picture K), create_movie path 0 none zero_omega (a :: b :: c :: rest) min_fps speed σ = (.ok film, σ) ∧
      film.pictures.head? = some p ∧ p.caption = -(m * fd) ∧ p.caption < 0 ∧
      ShowsFrame (images f) zero_omega [a, b, c] (n - m) p := by
  obtain ⟨film, s, h1, h2, h3, h4, h5⟩ := movie_offset path σ f hf ha v hv fd hfd hfd0 n (by omega) m hmn
    (Or.inr hi) a b c rest hds zero_omega min_fps hm speed
  have hs1 : (1 : ℤ) ≤ s := by rw [h3]; exact le_max_left _ _
  have hh := pyRange_head (-m) (n - m) s (by omega) hs1
  cases hl : pyRange (-(m : ℤ)) (n - m) s with
  | nil => rw [hl] at hh; cases hh
  | cons t ts =>
    rw [hl] at hh h5
    obtain rfl : t = -(m : ℤ) := Option.some.inj hh
    cases hp : film.pictures with
    | nil => rw [hp] at h5; cases h5
    | cons p ps =>
      rw [hp] at h5
      obtain ⟨⟨c1, c2⟩, -⟩ := List.forall₂_cons.1 h5
      have hc : p.caption = -(m * fd) := by rw [c1]; push_cast; ring
      refine ⟨film, p, h1, by rw [hp]; rfl, hc, ?_, ?_⟩
      · rw [hc, neg_lt_zero]
        exact mul_pos (by exact_mod_cast hm1) hfd0
      · have e : -(m : ℤ) % n = ((n - m : ℕ) : ℤ) % n := by
          rw [Nat.cast_sub hmn, ← Int.add_emod_right, sub_eq_neg_add]
        rw [e] at c2
        by_cases h0 : m = 0
        · omega
        · rwa [Int.emod_eq_of_lt (by positivity) (by exact_mod_cast (by omega : n - m < n)), Int.toNat_natCast] at c2

/-- **C123 is violated for files that start later**: with `n < m` no movie is made, but an `IndexError` is raised. -/
theorem C123_late_raises_violated (path : String) (σ : St K K) (f : H5 K K) (hf : σ.fs path = some f)
    (ha : f.attrs "adaptive_step_size" = some (.bool false)) (v : String → Attr K)
    (hv : ∀ k ∈ ["c1", "k0", "grid_pts", "dt", "N", "nu"], f.attrs k = some (v k)) (fd : K)
    (hfd : f.attrs "frame_dt" = some (.num fd)) (hfd0 : 0 < fd) (n : ℕ) (hn : 1 ≤ n) (m : ℕ) (hmn : n < m)
    (hi : f.attrs "initial_time" = some (.num (m * fd)))
    (a b c : String) (rest : List String) (hds : HasFrames (images f) [a, b, c] n) (zero_omega : Bool)
    (min_fps : ℤ) (hm : min_fps ≠ 0) (speed : K) :
    create_movie path 0 none zero_omega (a :: b :: c :: rest) min_fps speed σ = (.error .indexError, σ) := by
  obtain ⟨axes, hax, hnames⟩ := setupAxes_spec (images f) a b c rest n hn hds
  obtain ⟨dsa, hdsa, hlen, -⟩ := hds a (by simp)
  obtain ⟨p, p1, p2, p3, p4, p5⟩ := frames_offset n m fd speed hfd0 min_fps hm
  have hh := pyRange_head (-m) (n - m) p.step (by omega) p2
  rw [← p3] at hh
  unfold create_movie
  rw [IOM.bind_ok (x := ()) (σ' := σ) (by unfold openR; simp only [hf]),
    IOM.bind_ok (x := f) (σ' := σ) (by unfold content; simp only [hf]),
    IOM.bind_ok (x := .bool false) (σ' := σ) (by unfold RunProperties.attr IOM.lift; rw [ha])]
  simp only [attrTruth]
  unfold IOM.lift create_movie_equally_spaced
  rw [title_spec f v hv]
  simp only [Py.ok_bind, List.getElem?_cons_zero, hdsa]
  unfold RunProperties.attr
  simp only [hfd, Py.ok_bind, hlen, hi, Option.map_some]
  rw [show attrValue (Attr.num fd) = fd from rfl, show attrValue (Attr.num ((m : K) * fd)) = ((m : ℤ) : K) * fd by
    simp [attrValue], p1]
  simp only [Py.ok_bind, hax]
  unfold shoot
  rw [hh]
  simp only
  cases axes with
  | nil => simp at hnames
  | cons x xs =>
    obtain ⟨name, ax⟩ := x
    obtain rfl : name = a := by simpa using (List.cons.inj hnames).1
    unfold animate animateAxis
    rw [hdsa]
    simp only [Py.ok_bind]
    have : h5row dsa (-(m : ℤ)) = .error .indexError := by
      unfold h5row
      simp only
      rw [if_pos (by omega)]
    rw [this]
    rfl

/-- **C123 is violated for files that start later**: also if the times `t0` and `t1` of the first and the last frame are
given, so that the right frames are shown, the captions are wrong.  The file starts at `m * frame_dt`, so the frame `j`
has the time `(m + j) * frame_dt`; the caption of its picture is `j * frame_dt`. -/
theorem C123_caption_violated (path : String) (σ : St K K) (f : H5 K K) (hf : σ.fs path = some f)
    (ha : f.attrs "adaptive_step_size" = some (.bool false)) (v : String → Attr K)
    (hv : ∀ k ∈ ["c1", "k0", "grid_pts", "dt", "N", "nu"], f.attrs k = some (v k)) (fd : K)
    (hfd : f.attrs "frame_dt" = some (.num fd)) (hfd0 : 0 < fd) (n : ℕ) (hn : 1 ≤ n) (m : ℕ) (hm1 : 1 ≤ m)
    (hi : f.attrs "initial_time" = some (.num (m * fd)))
    (a b c : String) (rest : List String) (hds : HasFrames (images f) [a, b, c] n) (zero_omega : Bool)
    (min_fps : ℤ) (hm : min_fps ≠ 0) (speed : K) :
    ∃ (film : Film K) (s : ℕ), create_movie path (m * fd) (some ((m + (n - 1 : ℕ) : ℕ) * fd)) zero_omega (a :: b :: c :: rest)
        min_fps speed σ = (.ok film, σ) ∧ 1 ≤ s ∧
      List.Forall₂ (fun i p => ShowsFrame (images f) zero_omega [a, b, c] (s * i) p ∧ p.caption = ((s * i : ℕ) : K) * fd ∧
          p.caption ≠ ((m + s * i : ℕ) : K) * fd) (List.range ((n - 1) / s + 1)) film.pictures := by
  obtain ⟨axes, hax, hnames⟩ := setupAxes_spec (images f) a b c rest n hn hds
  obtain ⟨p, p1, p2, p3⟩ : ∃ p, equallySpaced 0 fd (some (m * fd)) (m * fd) (some ((m + (n - 1 : ℕ) : ℕ) * fd)) speed min_fps
      = .ok p ∧ 1 ≤ p.step ∧ p.frames = pyRange 0 n p.step := by
    have e1 : ((m : K) * fd - (m : K) * fd) / fd = ((0 : ℤ) : K) := by simp
    have e2 : (((m + (n - 1 : ℕ) : ℕ) : K) * fd - (m : K) * fd) / fd = (((n - 1 : ℕ) : ℤ) : K) := by
      rw [div_eq_iff hfd0.ne']; push_cast; ring
    have r : ∀ z : ℤ, roundEven (z : K) = z := fun z => roundEven_near _ _ (by rw [sub_self, abs_zero]; norm_num)
    have hs : ((max 1 ((truncZ (speed / fd)).fdiv min_fps) : ℤ) : K) ≠ 0 := by
      have : (1 : K) ≤ ((max 1 ((truncZ (speed / fd)).fdiv min_fps) : ℤ) : K) := by
        exact_mod_cast le_max_left _ _
      exact (lt_of_lt_of_le one_pos this).ne'
    refine ⟨⟨pyRange 0 n (max 1 ((truncZ (speed / fd)).fdiv min_fps)), max 1 ((truncZ (speed / fd)).fdiv min_fps),
      (truncZ (speed / fd) : K) / ((max 1 ((truncZ (speed / fd)).fdiv min_fps) : ℤ) : K)⟩, ?_, le_max_left _ _, rfl⟩
    simp only [equallySpaced, time_to_length, ex_ofInt, ex_sub, ex_div, ex_round, ex_toInt, Option.getD_some,
      if_neg hfd0.ne', Py.ok_bind, e1, e2, r, if_neg hm, if_neg hs]
    rw [show ((n - 1 : ℕ) : ℤ) + 1 = n by omega]
  obtain ⟨s, hs⟩ : ∃ s : ℕ, p.step = s := ⟨_, (Int.toNat_of_nonneg (by omega)).symm⟩
  have hs1 : 1 ≤ s := by omega
  rw [hs, pyRange_zero n s hn hs1] at p3
  obtain ⟨ps, q1, q2⟩ := shoot_spec (images f) zero_omega [a, b, c] n hds
    (fun t => .ok (FloatOps.mul (FloatOps.ofInt t) fd)) (fun t => (t : K) * fd) p.frames axes hnames (by
      intro t ht
      rw [p3] at ht
      obtain ⟨i, hi, rfl⟩ := List.mem_map.1 ht
      have hlt : s * i ≤ n - 1 :=
        le_trans (Nat.mul_le_mul_left s (by have := List.mem_range.1 hi; omega)) (Nat.mul_div_le _ _)
      refine ⟨by omega, ?_⟩
      simp [ex_mul, ex_ofInt])
  refine ⟨⟨["c1", "k0", "grid_pts", "dt", "N", "nu"].map fun k => (k, v k), p.fps, ps⟩, s, ?_, hs1, ?_⟩
  · unfold create_movie
    rw [IOM.bind_ok (x := ()) (σ' := σ) (by unfold openR; simp only [hf]),
      IOM.bind_ok (x := f) (σ' := σ) (by unfold content; simp only [hf]),
      IOM.bind_ok (x := .bool false) (σ' := σ) (by unfold RunProperties.attr IOM.lift; rw [ha])]
    simp only [attrTruth]
    unfold IOM.lift create_movie_equally_spaced
    rw [title_spec f v hv]
    simp only [Py.ok_bind]
    unfold RunProperties.attr
    simp only [hfd, Py.ok_bind, hi, Option.map_some]
    rw [show attrValue (Attr.num fd) = fd from rfl, show attrValue (Attr.num ((m : K) * fd)) = (m : K) * fd from rfl, p1]
    simp only [Py.ok_bind, hax]
    rw [q1]
    rfl
  · rw [p3, List.forall₂_map_left_iff] at q2
    refine List.forall₂_iff_get.2 ⟨q2.length_eq, fun i hi hi' => ?_⟩
    obtain ⟨c1, c2⟩ := (List.forall₂_iff_get.1 q2).2 i hi hi'
    simp only [List.get_eq_getElem, List.getElem_range, Int.cast_natCast] at c1 c2 ⊢
    have hi2 : i < (n - 1) / s + 1 := by simpa using hi
    have hlt : s * i ≤ n - 1 := le_trans (Nat.mul_le_mul_left s (by omega)) (Nat.mul_div_le _ _)
    rw [Int.emod_eq_of_lt (by positivity) (by exact_mod_cast (by omega : s * i < n)), Int.toNat_natCast] at c2
    refine ⟨c2, c1, ?_⟩
    rw [c1]
    intro h
    have := mul_right_cancel₀ hfd0.ne' h
    have : s * i = m + s * i := by exact_mod_cast this
    omega

/-- **C123**, file with adaptive time steps: picture `i` shows the frame whose number is the number of recorded times
before `i * speed / min_fps`, and the captions are the recorded times of these frames. -/
theorem C123_adaptive (path : String) (σ : St K K) (f : H5 K K) (hf : σ.fs path = some f)
    (ha : f.attrs "adaptive_step_size" = some (.bool true)) (v : String → Attr K)
    (hv : ∀ k ∈ ["c1", "k0", "grid_pts", "dt", "N", "nu"], f.attrs k = some (v k)) (times : List K) (T : K)
    (ht : f.dsets "time" = some (.rows .one (times.map .num))) (hT : times.getLast? = some T) (hT0 : 0 ≤ T)
    (a b c : String) (rest : List String) (hds : HasFrames (images f) [a, b, c] times.length)
    (zero_omega : Bool) (t0 : K) (min_fps : ℤ) (hm : 0 < min_fps) (speed : K) (hs : 0 < speed) :
    ∃ film : Film K, create_movie path t0 none zero_omega (a :: b :: c :: rest) min_fps speed σ = (.ok film, σ) ∧
      film.title = (["c1", "k0", "grid_pts", "dt", "N", "nu"].map fun k => (k, v k)) ∧ film.fps = min_fps ∧
      List.Forall₂ (fun (i : ℕ) p => ∃ j, j = times.countP (fun t => decide (t < (i : K) * (speed / min_fps))) ∧
          times[j]? = some p.caption ∧ ShowsFrame (images f) zero_omega [a, b, c] j p)
        (List.range (⌊T / (speed / min_fps)⌋₊ + 1)) film.pictures := by
  have hn : 1 ≤ times.length := by
    cases times with
    | nil => simp at hT
    | cons _ _ => simp
  have hm' : (0 : K) < min_fps := by exact_mod_cast hm
  obtain ⟨axes, hax, hnames⟩ := setupAxes_spec (images f) a b c rest times.length hn hds
  have hsel := unequally_eq times T speed min_fps hT hT0 hs hm'
  obtain ⟨frs, hfr, hin, -⟩ := C65_unequally_spaced_partial times T speed min_fps hT hT0 hs hm'
  rw [hsel] at hfr
  injection hfr with hfr
  obtain ⟨ps, q1, q2⟩ := shoot_spec (images f) zero_omega [a, b, c] times.length hds (h5row times)
    (fun t => times.getD t.toNat 0) frs axes hnames (by
      intro t ht
      have := hin t ht
      refine ⟨by omega, ?_⟩
      obtain ⟨j, rfl⟩ := Int.eq_ofNat_of_zero_le this.1
      have hlt : j < times.length := by omega
      rw [h5row_nat _ _ hlt, Int.toNat_natCast, List.getD_eq_getElem?_getD, List.getElem?_eq_getElem hlt]
      rfl)
  refine ⟨⟨_, min_fps, ps⟩, ?_, rfl, rfl, ?_⟩
  · unfold create_movie
    rw [IOM.bind_ok (x := ()) (σ' := σ) (by unfold openR; simp only [hf]),
      IOM.bind_ok (x := f) (σ' := σ) (by unfold content; simp only [hf]),
      IOM.bind_ok (x := .bool true) (σ' := σ) (by unfold RunProperties.attr IOM.lift; rw [ha])]
    simp only [attrTruth]
    unfold IOM.lift create_movie_unequal_spaced_fine
    rw [title_spec f v hv]
    have hrt : recordedTimes f = .ok times := by
      unfold recordedTimes
      rw [ht]
      simp only
      rw [List.mapM_map]
      exact (Helpers.mapM_ok _ id times fun x _ => rfl).trans (by rw [List.map_id])
    simp only [Py.ok_bind, hrt]
    rw [show (FloatOps.ofInt min_fps : K) = min_fps from rfl, hsel]
    simp only [Py.ok_bind, hax]
    rw [hfr, q1]
    rfl
  · rw [← hfr, List.forall₂_map_left_iff] at q2
    have hall : ∀ i ∈ List.range (⌊T / (speed / (min_fps : K))⌋₊ + 1),
        searchsorted times ((i : K) * (speed / min_fps)) < times.length := fun i hi => by
      have := hin (searchsorted times ((i : K) * (speed / min_fps))) (by rw [← hfr]; exact List.mem_map.2 ⟨i, hi, rfl⟩)
      omega
    refine List.forall₂_iff_get.2 ⟨q2.length_eq, fun i hi hi' => ?_⟩
    obtain ⟨c1, c2⟩ := (List.forall₂_iff_get.1 q2).2 i hi hi'
    have hlt := hall _ (List.get_mem _ ⟨i, hi⟩)
    rw [Int.emod_eq_of_lt (by positivity) (by exact_mod_cast hlt), Int.toNat_natCast] at c2
    refine ⟨_, rfl, ?_, c2⟩
    rw [Int.toNat_natCast] at c1
    rw [c1, List.getD_eq_getElem?_getD, List.getElem?_eq_getElem hlt]
    exact List.getElem?_eq_getElem hlt

/-! ### Movies of the files of the run functions -/

variable [Casts K K] [Inhabited K]

/-- the picture shows the recorded fields of the frame `fr` -/
def Depicts (E : Env K K) (factor : K) (zero_omega : Bool) (fr : K × NS (Cell K)) (p : Picture K) : Prop :=
  List.Forall₂ (fun name x => x.1 = name ∧ ∃ arr before, IsFrameRow E factor name fr.1 fr.2 (.arr arr) ∧
    Shows before x.2 (if zero_omega = true ∧ name = "omega" then arr.map (· - arr.mean) else arr)) fieldList p.axes

private theorem rows_images {E : Env K K} {factor : K} {n ns : ℕ} (hs : SavesAs E factor n ns) {k : String}
    (hk : k ∈ fieldList) {frs : List (K × NS (Cell K))} {rows : List (Cell K)}
    (h : List.Forall₂ (fun fr row => IsFrameRow E factor k fr.1 fr.2 row) frs rows) :
    (∀ fr ∈ frs, Shaped n fr.2) → ∃ ds, rowArrays rows = some ds ∧ (∀ a ∈ ds, a.h = ns ∧ a.w = ns) ∧
      List.Forall₂ (fun fr arr => IsFrameRow E factor k fr.1 fr.2 (.arr arr)) frs ds := by
  have hkt : k ≠ "time" := by rintro rfl; simp [fieldList] at hk
  induction h with
  | nil => exact fun _ => ⟨[], rfl, by simp, .nil⟩
  | @cons fr row frs rows h1 _ ih =>
    intro hsh
    obtain ⟨ds, i1, i2, i3⟩ := ih fun x hx => hsh x (List.mem_cons_of_mem _ hx)
    have h1' := h1
    unfold IsFrameRow at h1'
    rw [if_neg hkt] at h1'
    obtain ⟨A, B, e1, e2, rfl⟩ := h1'
    obtain ⟨A', a1, a2, a3⟩ := (hsh fr List.mem_cons_self).fields k hk
    obtain rfl : A' = A := by
      have := a1.symm.trans e1
      injection this with this
      injection this
    obtain ⟨B', b1, b2, b3⟩ := recorded_arr hs a2 a3
    obtain rfl : B' = B := by
      have := b1.symm.trans e2
      injection this with this
      injection this
    refine ⟨B'.map Casts.f32 :: ds, ?_, ?_, .cons h1 i3⟩
    · unfold rowArrays
      rw [i1]
      rfl
    · intro a ha
      rcases List.mem_cons.1 ha with rfl | ha
      · exact ⟨b2, b3⟩
      · exact i2 a ha

private theorem depicts_of_shows {E : Env K K} {factor : K} {zero_omega : Bool} {f : H5 K K} {frs : List (K × NS (Cell K))}
    (h : ∀ k ∈ fieldList, ∃ ds, images f k = some ds ∧
      List.Forall₂ (fun fr arr => IsFrameRow E factor k fr.1 fr.2 (.arr arr)) frs ds)
    {j : ℕ} {fr : K × NS (Cell K)} (hj : frs[j]? = some fr) {p : Picture K}
    (hp : ShowsFrame (images f) zero_omega fieldList j p) : Depicts E factor zero_omega fr p := by
  refine List.forall₂_iff_get.2 ⟨hp.length_eq, fun i hi hi' => ?_⟩
  obtain ⟨e, ds, arr, before, a1, a2, a3⟩ := (List.forall₂_iff_get.1 hp).2 i hi hi'
  obtain ⟨ds', b1, b2⟩ := h _ (List.get_mem _ ⟨i, hi⟩)
  obtain rfl : ds = ds' := Option.some.inj (a1.symm.trans b1)
  refine ⟨e, arr, before, ?_, a3⟩
  obtain ⟨hj1, rfl⟩ := List.getElem?_eq_some_iff.1 hj
  obtain ⟨hj2, rfl⟩ := List.getElem?_eq_some_iff.1 a2
  exact (List.forall₂_iff_get.1 b2).2 j hj1 hj2

theorem hasFrames_of_rows {E : Env K K} {factor : K} {n ns : ℕ} (hs : SavesAs E factor n ns) (hns : 1 ≤ ns)
    {f : H5 K K} {frs : List (K × NS (Cell K))} (hsh : ∀ fr ∈ frs, Shaped n fr.2)
    (h : ∀ k ∈ fieldList, ∃ rows, f.dsets k = some (.rows (rowShape ns k) rows) ∧
      List.Forall₂ (fun fr row => IsFrameRow E factor k fr.1 fr.2 row) frs rows) :
    HasFrames (images f) fieldList frs.length ∧ ∀ k ∈ fieldList, ∃ ds, images f k = some ds ∧
      List.Forall₂ (fun fr arr => IsFrameRow E factor k fr.1 fr.2 (.arr arr)) frs ds := by
  have key : ∀ k ∈ fieldList, ∃ ds, images f k = some ds ∧ (∀ a ∈ ds, a.h = ns ∧ a.w = ns) ∧
      List.Forall₂ (fun fr arr => IsFrameRow E factor k fr.1 fr.2 (.arr arr)) frs ds := fun k hk => by
    obtain ⟨rows, h1, h2⟩ := h k hk
    obtain ⟨ds, h3, h4⟩ := rows_images hs hk h2 hsh
    refine ⟨ds, ?_, h4⟩
    unfold images
    rw [h1]
    exact h3
  refine ⟨fun k hk => ?_, fun k hk => ?_⟩
  · obtain ⟨ds, h1, h2, h3⟩ := key k hk
    exact ⟨ds, h1, h3.length_eq.symm, fun a ha => by have := h2 a ha; omega⟩
  · obtain ⟨ds, h1, h2, h3⟩ := key k hk
    exact ⟨ds, h1, h3⟩

/-- the parameters in the title of the movie of a run -/
def runTitle (a : Args K) : List (String × Attr K) :=
  [("c1", .num a.c1), ("k0", .num a.k0), ("grid_pts", .int a.grid_pts), ("dt", .num a.step_size), ("N", .int a.N),
   ("nu", .num a.nu)]

theorem describes_title {f : H5 K K} {a : Args K} {ns : ℕ} (h : Describes f a ns) : ∃ v : String → Attr K,
    (∀ k ∈ ["c1", "k0", "grid_pts", "dt", "N", "nu"], f.attrs k = some (v k)) ∧
      (["c1", "k0", "grid_pts", "dt", "N", "nu"].map fun k => (k, v k)) = runTitle a := by
  refine ⟨fun k => (f.attrs k).getD (.num 0), fun k hk => ?_, ?_⟩
  · simp only [List.mem_cons, List.not_mem_nil, or_false] at hk
    rcases hk with rfl | rfl | rfl | rfl | rfl | rfl
    · simp only [h.c1, Option.getD_some]
    · simp only [h.k0, Option.getD_some]
    · simp only [h.grid_pts, Option.getD_some]
    · simp only [h.dt, Option.getD_some]
    · simp only [h.N, Option.getD_some]
    · simp only [h.nu, Option.getD_some]
  · simp only [List.map_cons, List.map_nil, h.c1, h.k0, h.grid_pts, h.dt, h.N, h.nu, Option.getD_some]
    rfl

theorem frames_shaped {E : Env K K} {a : Args K} {σ : St K K} {hw : Solver K} {ns m : ℕ} {steps : ℤ}
    {S : ℕ → NS (Cell K)} (h : FreshRun E a σ hw ns steps m S) : ∀ fr ∈ frames a S m, Shaped a.grid_pts fr.2 := by
  intro fr hfr
  unfold frames at hfr
  rcases List.mem_append.1 hfr with h1 | h1
  · split_ifs at h1
    · rw [List.mem_singleton.1 h1]; exact h.init
    · simp at h1
  · obtain ⟨it, h2, rfl⟩ := List.mem_map.1 h1
    have := List.mem_range'_1.1 (List.mem_filter.1 h2).1
    exact h.shaped it (by omega) (by omega)

/-- **C123 (`run`).** The movie of the file of a new run recorded from the start, made with the arguments `run` passes:
every `s`-th recorded frame is shown, in order from the first one on, with the fields as recorded, and its caption is the
time of this frame. -/
theorem C123_run {E : Env K K} {a : Args K} {σ : St K K} {hw : Solver K} {ns m : ℕ} {steps : ℤ}
    {S : ℕ → NS (Cell K)} (h : FreshRun E a σ hw ns steps m S) (hns : 1 ≤ ns) (hdt : 0 < a.step_size)
    (hr : a.recording_start_time = 0) (hp : ∀ k ∈ fieldList, k ∉ a.properties) (zero_omega : Bool) (min_fps : ℤ)
    (hm : min_fps ≠ 0) (speed : K) :
    ∃ (film : Film K) (s : ℕ), create_movie a.output_path 0 none zero_omega fieldList min_fps speed (run E a σ).2
        = (.ok film, (run E a σ).2) ∧ film.title = runTitle a ∧
      (s : ℤ) = max 1 ((truncZ (speed / (a.step_size * a.snaps))).fdiv min_fps) ∧
      film.fps = (truncZ (speed / (a.step_size * a.snaps)) : K) / s ∧
      List.Forall₂ (fun i p => ∃ fr, (frames a S m)[s * i]? = some fr ∧ p.caption = fr.1 ∧
          Depicts E a.downsample_factor zero_omega fr p) (List.range ((m / a.snaps) / s + 1)) film.pictures := by
  obtain ⟨f, h1, hd, had, -⟩ := C73_run_parameters h
  obtain ⟨f', h1', -, -, -, h2, -⟩ := run_result h
  obtain rfl : f' = f := Option.some.inj (h1'.symm.trans h1)
  obtain ⟨hF, hI⟩ := hasFrames_of_rows h.saves hns (frames_shaped h) fun k hk => h2 k (List.mem_cons_of_mem _ hk) (hp k hk)
  obtain ⟨v, hv, hvt⟩ := describes_title hd
  have hfr : frames a S m = (List.range (m / a.snaps + 1)).map (frameAt a S) :=
    frames_from_zero (by rw [hr]; simp [FloatOps.eq, FloatOps.ofInt]) fun it _ _ => by
      rw [hr, exact_time]
      exact decide_eq_true (by positivity)
  have hlen : (frames a S m).length = m / a.snaps + 1 := by rw [hfr]; simp
  have hfd0 : 0 < a.step_size * (a.snaps : K) := mul_pos hdt (by exact_mod_cast h.snaps)
  obtain ⟨film, s, q1, q2, q3, q4, q5⟩ := C123_equally_spaced a.output_path (run E a σ).2 f' h1 had v hv
    (a.step_size * a.snaps) (by rw [hd.frame_dt]; simp [FloatOps.mul, FloatOps.ofInt]) hfd0
    (Or.inr (by rw [hd.initial_time, hr])) (frames a S m).length (by rw [hlen]; exact Nat.le_add_left _ _) "density" "omega" "phi" [] hF zero_omega min_fps hm speed
  refine ⟨film, s, q1, by rw [q2, hvt], q3, q4, ?_⟩
  rw [hlen, Nat.add_sub_cancel] at q5
  refine List.forall₂_iff_get.2 ⟨q5.length_eq, fun i hi hi' => ?_⟩
  obtain ⟨c1, c2⟩ := (List.forall₂_iff_get.1 q5).2 i hi hi'
  have hi2 : i < m / a.snaps / s + 1 := by simpa using hi
  simp only [List.get_eq_getElem, List.getElem_range] at c1 c2 ⊢
  have hlt : s * i < m / a.snaps + 1 :=
    Nat.lt_succ_of_le (le_trans (Nat.mul_le_mul_left s (by omega)) (Nat.mul_div_le _ _))
  have hget : (frames a S m)[s * i]? = some (frameAt a S (s * i)) := by
    rw [hfr, List.getElem?_map, List.getElem?_range hlt]
    rfl
  refine ⟨_, hget, ?_, depicts_of_shows hI hget c2⟩
  rw [c1]
  unfold frameAt
  by_cases h0 : s * i = 0
  · rw [if_pos h0, h0]
    simp [FloatOps.ofInt]
  · rw [if_neg h0, exact_time]
    push_cast
    ring

private theorem frames2_shaped {E : Env2 K K} {a : Args2 K} {σ : St K K} {hw : Solver K} {ns m : ℕ}
    {S : ℕ → NS (Cell K)} (h : FreshRun2 E a σ hw ns m S) : ∀ fr ∈ frames2 E a S m, Shaped a.grid_pts fr.2 := by
  intro fr hfr
  unfold frames2 at hfr
  rcases List.mem_append.1 hfr with h1 | h1
  · split_ifs at h1
    · rw [List.mem_singleton.1 h1]; exact h.init
    · simp at h1
  · unfold stepFrames2 at h1
    obtain ⟨it, h2, rfl⟩ := List.mem_map.1 h1
    have := List.mem_range'_1.1 (List.mem_filter.1 h2).1
    exact h.shaped it (by omega) (by omega)

theorem time_rows {E : Env K K} {factor : K} {frs : List (K × NS (Cell K))} {rows : List (Cell K)}
    (h : List.Forall₂ (fun fr row => IsFrameRow E factor "time" fr.1 fr.2 row) frs rows) :
    rows = (frs.map fun fr => Casts.f32 fr.1).map .num := by
  induction h with
  | nil => rfl
  | cons h1 _ ih =>
    unfold IsFrameRow at h1
    rw [if_pos rfl] at h1
    rw [h1, ih]
    rfl

/-- the file `f0` has the parameters and the recorded frames of `f` -/
def SameFrames (f0 f : H5 K K) : Prop := f0.attrs = f.attrs ∧ ∀ k ∈ "time" :: fieldList, f0.dsets k = f.dsets k

private theorem SameFrames.describes {f0 f : H5 K K} (h : SameFrames f0 f) {a : Args K} {ns : ℕ} (hd : Describes f a ns) :
    Describes f0 a ns := by
  constructor <;> rw [h.1]
  exacts [hd.dt, hd.frame_dt, hd.x, hd.y, hd.grid_pts, hd.x_save, hd.y_save, hd.initial_time, hd.dx, hd.N, hd.c1, hd.nu, hd.k0,
    hd.poisson_bracket_coeff, hd.kappa_coeff]

/-- the movie of a file with the frames of a new run, adaptive time steps -/
theorem movie_run2_adaptive {E : Env2 K K} {a : Args2 K} {σ : St K K} {hw : Solver K} {ns m fuel : ℕ}
    {S : ℕ → NS (Cell K)} (h : FreshRun2 E a σ hw ns m S) (hfuel : m < fuel)
    {σ' : St K K} {f0 : H5 K K} (hf0 : σ'.fs a.output_path = some f0)
    (hsame : ∀ f, (run2 E a fuel σ).2.fs a.output_path = some f → SameFrames f0 f) (hns : 1 ≤ ns)
    (hend : a.recording_start_time < timeAt E a 0 m) (had : a.adaptive_step_size = true)
    (hp : ∀ k ∈ "time" :: fieldList, k ∉ a.properties) (last : K × NS (Cell K))
    (hlast : (frames2 E a S m).getLast? = some last) (hpos : 0 ≤ (Casts.f32 last.1 : K)) (zero_omega : Bool)
    (min_fps : ℤ) (hm : 1 ≤ min_fps) (speed : K) (hspeed : 0 < speed) :
    ∃ film, create_movie a.output_path 0 none zero_omega fieldList min_fps speed σ'
        = (.ok film, σ') ∧ film.title = runTitle a.toArgs ∧ film.fps = min_fps ∧
      List.Forall₂ (fun (i : ℕ) p => ∃ (j : ℕ) (fr : K × NS (Cell K)), (frames2 E a S m)[j]? = some fr ∧
          j = ((frames2 E a S m).map fun fr => (Casts.f32 fr.1 : K)).countP (fun t => decide (t < (i : K) * (speed / min_fps))) ∧
          p.caption = Casts.f32 fr.1 ∧ Depicts E.toEnv a.downsample_factor zero_omega fr p)
        (List.range (⌊(Casts.f32 last.1 : K) / (speed / min_fps)⌋₊ + 1)) film.pictures := by
  have ez : (FloatOps.ofInt 0 : K) = 0 := by simp [FloatOps.ofInt]
  obtain ⟨f, h1, hd, hada, -⟩ := C73_run2_parameters h hfuel
  obtain ⟨f', h1', -, h2, -⟩ := C52_all_written_partial h hfuel (by
    rw [ez]
    exact decide_eq_true hend)
  obtain rfl : f' = f := Option.some.inj (h1'.symm.trans h1)
  have hs := hsame f' h1
  replace hd := hs.describes hd
  obtain ⟨hF, hI⟩ := hasFrames_of_rows h.saves hns (frames2_shaped h) fun k hk => by
    rw [hs.2 k (List.mem_cons_of_mem _ hk)]
    exact h2 k (List.mem_cons_of_mem _ hk) (hp k (List.mem_cons_of_mem _ hk))
  obtain ⟨v, hv, hvt⟩ := describes_title hd
  obtain ⟨trows, ht1, ht2⟩ := h2 "time" (by simp) (hp "time" (by simp))
  rw [time_rows ht2, show rowShape ns "time" = .one from rfl, ← hs.2 "time" (by simp)] at ht1
  obtain ⟨film, q1, q2, q3, q4⟩ := C123_adaptive a.output_path σ' f0 hf0 (by rw [hs.1, hada, had]) v hv
    ((frames2 E a S m).map fun fr => (Casts.f32 fr.1 : K)) (Casts.f32 last.1) ht1 (by rw [List.getLast?_map, hlast]; rfl) hpos
    "density" "omega" "phi" [] (by rw [List.length_map]; exact hF) zero_omega 0 min_fps hm speed hspeed
  refine ⟨film, q1, by rw [q2, hvt], q3, ?_⟩
  refine List.forall₂_iff_get.2 ⟨q4.length_eq, fun i hi hi' => ?_⟩
  obtain ⟨j, c1, c2, c3⟩ := (List.forall₂_iff_get.1 q4).2 i hi hi'
  rw [List.getElem?_map] at c2
  obtain ⟨fr, hfr, hc⟩ := Option.map_eq_some_iff.1 c2
  exact ⟨j, fr, hfr, c1, hc.symm, depicts_of_shows hI hfr c3⟩

/-- **C123 (`run` of the second module, adaptive time steps).** The movie of the file of a new run, made with the
arguments `run` passes.  The picture `i` belongs to the movie time `i * speed / min_fps`; it shows the first recorded
frame that is not earlier, with the fields as recorded, and its caption is the recorded time of this frame.  The
recording may start late. -/
theorem C123_run2_adaptive {E : Env2 K K} {a : Args2 K} {σ : St K K} {hw : Solver K} {ns m fuel : ℕ}
    {S : ℕ → NS (Cell K)} (h : FreshRun2 E a σ hw ns m S) (hfuel : m < fuel) (hns : 1 ≤ ns)
    (hend : a.recording_start_time < timeAt E a 0 m) (had : a.adaptive_step_size = true)
    (hp : ∀ k ∈ "time" :: fieldList, k ∉ a.properties) (last : K × NS (Cell K))
    (hlast : (frames2 E a S m).getLast? = some last) (hpos : 0 ≤ (Casts.f32 last.1 : K)) (zero_omega : Bool)
    (min_fps : ℤ) (hm : 1 ≤ min_fps) (speed : K) (hspeed : 0 < speed) :
    ∃ film, create_movie a.output_path 0 none zero_omega fieldList min_fps speed (run2 E a fuel σ).2
        = (.ok film, (run2 E a fuel σ).2) ∧ film.title = runTitle a.toArgs ∧ film.fps = min_fps ∧
      List.Forall₂ (fun (i : ℕ) p => ∃ (j : ℕ) (fr : K × NS (Cell K)), (frames2 E a S m)[j]? = some fr ∧
          j = ((frames2 E a S m).map fun fr => (Casts.f32 fr.1 : K)).countP (fun t => decide (t < (i : K) * (speed / min_fps))) ∧
          p.caption = Casts.f32 fr.1 ∧ Depicts E.toEnv a.downsample_factor zero_omega fr p)
        (List.range (⌊(Casts.f32 last.1 : K) / (speed / min_fps)⌋₊ + 1)) film.pictures := by
  obtain ⟨f, h1, -⟩ := C73_run2_parameters h hfuel
  exact movie_run2_adaptive h hfuel h1 (fun g hg => by
    obtain rfl := Option.some.inj (h1.symm.trans hg)
    exact ⟨rfl, fun _ _ => rfl⟩) hns hend had hp last hlast hpos zero_omega min_fps hm speed hspeed

theorem timeAt_fixed {E : Env2 K K} {a : Args2 K} (had : a.adaptive_step_size = false) (it : ℕ) :
    timeAt E a (FloatOps.ofInt 0 : K) it = it * a.step_size := by
  have ez : (FloatOps.ofInt 0 : K) = 0 := by simp [FloatOps.ofInt]
  rw [ez]
  unfold timeAt
  by_cases h0 : it = 0
  · simp [h0]
  · rw [if_neg h0, had]
    simp [FloatOps.add, FloatOps.mul, FloatOps.ofInt]

/-- the frames of a new run with fixed time steps -/
theorem frames2_fixed {E : Env2 K K} {a : Args2 K} (hdt : 0 < a.step_size) (hr : a.recording_start_time = 0)
    (had : a.adaptive_step_size = false) (S : ℕ → NS (Cell K)) (m : ℕ) :
    frames2 E a S m = (List.range (m / a.snaps + 1)).map fun j =>
      (((j * a.snaps : ℕ) : K) * a.step_size, if j = 0 then a.plasma0 else S (j * a.snaps)) := by
  have ez : (FloatOps.ofInt 0 : K) = 0 := by simp [FloatOps.ofInt]
  unfold frames2 stepFrames2
  rw [if_pos (by rw [hr]; simp [FloatOps.eq, FloatOps.ofInt])]
  have h1 : (List.range' 1 m).filter (isRecorded2 E a (FloatOps.ofInt 0)) =
      (List.range' 1 m).filter (fun it => it % a.snaps == 0) := by
    apply List.filter_congr
    intro it _
    unfold isRecorded2
    rw [timeAt_fixed had, hr, show FloatOps.le (0 : K) (it * a.step_size) = true from decide_eq_true (by positivity), Bool.true_and]
  rw [h1, filter_multiples, List.map_map, List.range_eq_range', List.range'_succ]
  simp only [List.map_cons, List.singleton_append]
  refine congrArg₂ _ (by simp [ez]) ?_
  rw [Nat.zero_add]
  apply List.map_congr_left
  intro j hj
  rw [List.mem_range'_1] at hj
  rw [if_neg (by omega), Function.comp_apply, timeAt_fixed had]

/-- the movie of a file with the frames of a new run, fixed time steps -/
theorem movie_run2_fixed {E : Env2 K K} {a : Args2 K} {σ : St K K} {hw : Solver K} {ns m fuel : ℕ}
    {S : ℕ → NS (Cell K)} (h : FreshRun2 E a σ hw ns m S) (hfuel : m < fuel)
    {σ' : St K K} {f0 : H5 K K} (hf0 : σ'.fs a.output_path = some f0)
    (hsame : ∀ f, (run2 E a fuel σ).2.fs a.output_path = some f → SameFrames f0 f) (hns : 1 ≤ ns) (hdt : 0 < a.step_size)
    (hm1 : 1 ≤ m) (hr : a.recording_start_time = 0) (had : a.adaptive_step_size = false)
    (hp : ∀ k ∈ fieldList, k ∉ a.properties) (zero_omega : Bool) (min_fps : ℤ) (hm : min_fps ≠ 0) (speed : K) :
    ∃ (film : Film K) (s : ℕ), create_movie a.output_path 0 none zero_omega fieldList min_fps speed σ'
        = (.ok film, σ') ∧ film.title = runTitle a.toArgs ∧
      (s : ℤ) = max 1 ((truncZ (speed / (a.step_size * a.snaps))).fdiv min_fps) ∧
      film.fps = (truncZ (speed / (a.step_size * a.snaps)) : K) / s ∧
      List.Forall₂ (fun i p => ∃ fr, (frames2 E a S m)[s * i]? = some fr ∧ p.caption = fr.1 ∧
          Depicts E.toEnv a.downsample_factor zero_omega fr p) (List.range ((m / a.snaps) / s + 1)) film.pictures := by
  obtain ⟨f, h1, hd, hada, -⟩ := C73_run2_parameters h hfuel
  obtain ⟨f', h1', -, h2, -⟩ := C52_all_written_partial h hfuel (by
    rw [hr, timeAt_fixed had]
    exact decide_eq_true (mul_pos (by exact_mod_cast hm1) hdt))
  obtain rfl : f' = f := Option.some.inj (h1'.symm.trans h1)
  have hs := hsame f' h1
  replace hd := hs.describes hd
  obtain ⟨hF, hI⟩ := hasFrames_of_rows h.saves hns (frames2_shaped h) fun k hk => by
    rw [hs.2 k (List.mem_cons_of_mem _ hk)]
    exact h2 k (List.mem_cons_of_mem _ hk) (hp k hk)
  obtain ⟨v, hv, hvt⟩ := describes_title hd
  have hfr := frames2_fixed (E := E) hdt hr had S m
  have hlen : (frames2 E a S m).length = m / a.snaps + 1 := by rw [hfr]; simp
  have hfd0 : 0 < a.step_size * (a.snaps : K) := mul_pos hdt (by exact_mod_cast h.snaps)
  obtain ⟨film, s, q1, q2, q3, q4, q5⟩ := C123_equally_spaced a.output_path σ' f0 hf0 (by rw [hs.1, hada, had]) v hv
    (a.step_size * a.snaps) (by rw [hd.frame_dt]; simp [FloatOps.mul, FloatOps.ofInt]) hfd0
    (Or.inr (by rw [hd.initial_time, hr])) (frames2 E a S m).length (by rw [hlen]; exact Nat.le_add_left _ _)
    "density" "omega" "phi" [] hF zero_omega min_fps hm speed
  refine ⟨film, s, q1, by rw [q2, hvt], q3, q4, ?_⟩
  rw [hlen, Nat.add_sub_cancel] at q5
  refine List.forall₂_iff_get.2 ⟨q5.length_eq, fun i hi hi' => ?_⟩
  obtain ⟨c1, c2⟩ := (List.forall₂_iff_get.1 q5).2 i hi hi'
  have hi2 : i < m / a.snaps / s + 1 := by simpa using hi
  simp only [List.get_eq_getElem, List.getElem_range] at c1 c2 ⊢
  have hlt : s * i < m / a.snaps + 1 :=
    Nat.lt_succ_of_le (le_trans (Nat.mul_le_mul_left s (by omega)) (Nat.mul_div_le _ _))
  have hget : (frames2 E a S m)[s * i]? =
      some (((s * i * a.snaps : ℕ) : K) * a.step_size, if s * i = 0 then a.plasma0 else S (s * i * a.snaps)) := by
    rw [hfr, List.getElem?_map, List.getElem?_range hlt]
    rfl
  refine ⟨_, hget, ?_, depicts_of_shows hI hget c2⟩
  rw [c1]
  push_cast
  ring

/-- **C123 (`run` of the second module, fixed time steps).** The movie of the file of a new run recorded from the start. -/
theorem C123_run2_fixed {E : Env2 K K} {a : Args2 K} {σ : St K K} {hw : Solver K} {ns m fuel : ℕ}
    {S : ℕ → NS (Cell K)} (h : FreshRun2 E a σ hw ns m S) (hfuel : m < fuel) (hns : 1 ≤ ns) (hdt : 0 < a.step_size)
    (hm1 : 1 ≤ m) (hr : a.recording_start_time = 0) (had : a.adaptive_step_size = false)
    (hp : ∀ k ∈ fieldList, k ∉ a.properties) (zero_omega : Bool) (min_fps : ℤ) (hm : min_fps ≠ 0) (speed : K) :
    ∃ (film : Film K) (s : ℕ), create_movie a.output_path 0 none zero_omega fieldList min_fps speed (run2 E a fuel σ).2
        = (.ok film, (run2 E a fuel σ).2) ∧ film.title = runTitle a.toArgs ∧
      (s : ℤ) = max 1 ((truncZ (speed / (a.step_size * a.snaps))).fdiv min_fps) ∧
      film.fps = (truncZ (speed / (a.step_size * a.snaps)) : K) / s ∧
      List.Forall₂ (fun i p => ∃ fr, (frames2 E a S m)[s * i]? = some fr ∧ p.caption = fr.1 ∧
          Depicts E.toEnv a.downsample_factor zero_omega fr p) (List.range ((m / a.snaps) / s + 1)) film.pictures := by
  obtain ⟨f, h1, -⟩ := C73_run2_parameters h hfuel
  exact movie_run2_fixed h hfuel h1 (fun g hg => by
    obtain rfl := Option.some.inj (h1.symm.trans hg)
    exact ⟨rfl, fun _ _ => rfl⟩) hns hdt hm1 hr had hp zero_omega min_fps hm speed

end

/-! ### Concrete cases -/

section

attribute [local instance] exactOps demoCasts

/-- a file with three frames of 1 × 2 points, fixed or adaptive steps -/
def demoMovieFile (adaptive : Bool) (init : ℚ) : H5 ℚ ℚ where
  attrs k :=
    if k = "adaptive_step_size" then some (.bool adaptive) else if k = "frame_dt" then some (.num (1 / 2)) else
    if k = "initial_time" then some (.num init) else
    if k ∈ ["c1", "k0", "grid_pts", "dt", "N", "nu"] then some (.num 1) else none
  dsets k :=
    if k = "time" then some (.rows .one ([0, 1 / 3, 1].map .num)) else
    if k ∈ ["density", "omega", "phi"] then
      some (.rows (.grid 1 2) ([1, 2, 3].map fun x => .arr (.tab 1 2 fun i j => x * (i + j)))) else none

theorem demo_hasFrames (adaptive : Bool) (init : ℚ) :
    HasFrames (images (demoMovieFile adaptive init)) ["density", "omega", "phi"] 3 := by
  intro k hk
  refine ⟨[1, 2, 3].map fun x : ℚ => .tab 1 2 fun i j => x * (i + j), ?_, by simp, ?_⟩
  · simp only [List.mem_cons, List.not_mem_nil, or_false] at hk
    rcases hk with rfl | rfl | rfl <;> rfl
  · intro a ha
    obtain ⟨x, -, rfl⟩ := List.mem_map.1 ha
    exact ⟨Nat.one_pos, Nat.two_pos⟩

def demoMovieSt (adaptive : Bool) (init : ℚ) : St ℚ ℚ where
  fs p := if p = "a.h5" then some (demoMovieFile adaptive init) else none

example := C123_equally_spaced "a.h5" (demoMovieSt false 0) (demoMovieFile false 0) rfl rfl (fun _ => .num 1)
  (by intro k hk; simp only [List.mem_cons, List.not_mem_nil, or_false] at hk; rcases hk with rfl | rfl | rfl | rfl | rfl | rfl <;> rfl)
  (1 / 2) rfl (by norm_num) (Or.inr rfl) 3 (by norm_num) "density" "omega" "phi" [] (demo_hasFrames _ _) true 1 (by norm_num) 1

example := C123_late_violated "a.h5" (demoMovieSt false 1) (demoMovieFile false 1) rfl rfl (fun _ => .num 1)
  (by intro k hk; simp only [List.mem_cons, List.not_mem_nil, or_false] at hk; rcases hk with rfl | rfl | rfl | rfl | rfl | rfl <;> rfl)
  (1 / 2) rfl (by norm_num) 3 2 (by norm_num) (by norm_num) (by simp only [demoMovieFile, String.reduceEq, if_false, if_true]; norm_num) "density" "omega" "phi" []
  (demo_hasFrames _ _) true 1 (by norm_num) 1

example := C123_late_raises_violated "a.h5" (demoMovieSt false 2) (demoMovieFile false 2) rfl rfl (fun _ => .num 1)
  (by intro k hk; simp only [List.mem_cons, List.not_mem_nil, or_false] at hk; rcases hk with rfl | rfl | rfl | rfl | rfl | rfl <;> rfl)
  (1 / 2) rfl (by norm_num) 3 (by norm_num) 4 (by norm_num) (by simp only [demoMovieFile, String.reduceEq, if_false, if_true]; norm_num) "density" "omega" "phi" []
  (demo_hasFrames _ _) true 1 (by norm_num) 1

example := C123_caption_violated "a.h5" (demoMovieSt false 2) (demoMovieFile false 2) rfl rfl (fun _ => .num 1)
  (by intro k hk; simp only [List.mem_cons, List.not_mem_nil, or_false] at hk; rcases hk with rfl | rfl | rfl | rfl | rfl | rfl <;> rfl)
  (1 / 2) rfl (by norm_num) 3 (by norm_num) 4 (by norm_num) (by simp only [demoMovieFile, String.reduceEq, if_false, if_true]; norm_num) "density" "omega" "phi" []
  (demo_hasFrames _ _) true 1 (by norm_num) 1

example := C123_adaptive "a.h5" (demoMovieSt true 0) (demoMovieFile true 0) rfl rfl (fun _ => .num 1)
  (by intro k hk; simp only [List.mem_cons, List.not_mem_nil, or_false] at hk; rcases hk with rfl | rfl | rfl | rfl | rfl | rfl <;> rfl)
  [0, 1 / 3, 1] 1 rfl rfl (by norm_num) "density" "omega" "phi" [] (demo_hasFrames _ _) true 0 10 (by norm_num) 5 (by norm_num)

example := C123_run demo_fresh4 (by norm_num) (by norm_num [demoArgs]) rfl (by simp [demoArgs]) true 10 (by norm_num) 5

example := C123_run2_adaptive demo_run2_4 (fuel := 9) (by decide) (by norm_num)
  (by rw [demo_time2]; norm_num [demoArgs2, demoArgs]) rfl
  (by simp [demoArgs2, fieldList]) (2, demoStates (1 / 2) demoStart 4)
  (by simp [frames2, stepFrames2, isRecorded2, demo_time2, FloatOps.eq, FloatOps.le, FloatOps.ofInt, demoArgs2, demoArgs, List.range']; norm_num)
  (by show (0 : ℚ) ≤ (⌊100 * (2 : ℚ)⌋ : ℚ) / 100; norm_num) true 10 (by norm_num) 5 (by norm_num)

/-- four steps of fixed size -/
theorem demo_run2_fixed : FreshRun2 demoEnv2 { demoArgs2 with adaptive_step_size := false } noFiles demoSolver 2 4
    (demoStates (1 / 2) demoStart) where
  toFreshCall2 := { demo_run2_4.toFreshCall2 with saves := ⟨demo_saves.dim, demo_saves.down⟩ }
  traj := demo_run2_4.traj
  shaped := demo_run2_4.shaped
  stops := by
    have h := demo_run2_4.stops
    refine ⟨fun j hj => ?_, fun j h1 h2 hr => ?_, ?_⟩
    · have := h.before j hj
      rw [demo_time2] at this ⊢
      exact this
    · refine h.noNaN j h1 h2 ?_
      unfold isRecorded2 at hr ⊢
      rw [demo_time2] at hr ⊢
      exact hr
    · refine h.stop.imp (fun h => ?_) fun h => ?_
      · rw [demo_time2] at h ⊢
        exact h
      · refine ⟨h.1, ?_, h.2.2⟩
        have := h.2.1
        unfold isRecorded2 at this ⊢
        rw [demo_time2] at this ⊢
        exact this

example := C123_run2_fixed demo_run2_fixed (fuel := 9) (by decide) (by norm_num) (by norm_num [demoArgs2, demoArgs])
  (by norm_num) rfl rfl (by simp [demoArgs2, fieldList]) true 10 (by norm_num) 5

end

end Verif.Props
