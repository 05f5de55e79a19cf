import Verif.Model.Run2
import Verif.Model.Timetrace

/-!
# Complete calls of the run functions, with movie and plots

`Model/Run.lean` and `Model/Run2.lean` stop at the file with its properties; here the movie and the figure
are added.  Not modelled: console output and the performance log; the handle of the file that `create_movie` does not
close (CPython closes it when the function returns).  The file has numbers of one type `K`; `sqrt` is
the square root used by `np.std`.
-/

namespace Verif.RunAll

open H5 H5IO Run Run2 Movie Timetrace

variable {K : Type} [Field K] [LinearOrder K] [IsStrictOrderedRing K] [FloorRing K] [FloatOps K] [Casts K K] [Inhabited K]

/-- arguments for movie and plots, `run.py` l.52-55, 68-76, `run2.py` l.89-92, 106-115 -/
structure Extras (K : Type) where
  movie : Bool
  min_fps : ℤ
  speed : K
  plot_properties : List String

/-- what is shown to the user: the movie and the curves of the figure -/
structure Output (K C : Type) where
  film : Option (Film K)
  curves : Option C

/-- `run.py` l.297-308, `run2.py` l.450-461: the movie (`zero_omega` has its default value) -/
def makeMovie (path : String) (x : Extras K) : IOM K K (Option (Film K)) :=
  if x.movie then do
    let film ← create_movie path 0 none false fieldList x.min_fps x.speed
    return some film
  else return none

/-- `run.py` l.310-318, `run2.py` l.463-471 -/
def makeProperties (E : RunProperties.PropEnv K K) (path : String) (buffer_length : ℕ) (properties : List String) :
    IOM K K Unit :=
  if !properties.isEmpty then RunProperties.calculate_properties E path buffer_length properties true else return ()

/-- `run.py` l.320-328: the figure (`t0_std` is 300) -/
def makePlot (sqrt : K → K) (path : String) (x : Extras K) : IOM K K (Option (List (Curve K))) :=
  if !x.plot_properties.isEmpty then do
    openR path
    let f ← content path
    IOM.lift (plot_timetraces sqrt f x.plot_properties 0 300)
  else return none

/-- `run2.py` l.473-481: the figure with two panels (`prefix` and `xtick_interval` have their default values) -/
def makePlot2 (sqrt : K → K) (path : String) (x : Extras K) (t0_std : K) :
    IOM K K (Option (List (Curve K) × List (Curve K))) :=
  if !x.plot_properties.isEmpty then do
    openR path
    let f ← content path
    IOM.lift (plot_timetrace_comparison sqrt f x.plot_properties "fullres_" (.int 0) t0_std 100)
  else return none

/-- `run`, `run.py` l.27-328 -/
def runAll (E : Env K K) (a : Args K) (x : Extras K) (sqrt : K → K) : IOM K K (Output K (List (Curve K))) := do
  if a.output_path = "" then IOM.raise (.unboundLocalError "save_params")
  else do
    match ← setup E a with
    | none => return ⟨none, none⟩
    | some (s, physics_params, initial_time) => do
      simulate E a s physics_params initial_time
      let film ← makeMovie a.output_path x
      makeProperties E.props a.output_path a.buffer_length a.properties
      let curves ← makePlot sqrt a.output_path x
      return ⟨film, curves⟩

/-- `run` of `run2.py`, l.60-481; `none`: not finished after `fuel` steps -/
def runAll2 (E : Env2 K K) (a : Args2 K) (x : Extras K) (t0_std : K) (sqrt : K → K) (fuel : ℕ) :
    IOM K K (Option (Output K (List (Curve K) × List (Curve K)))) := do
  let q ← IOM.lift (FloatOps.div a.end_time a.step_size)
  let _ ← IOM.lift (FloatOps.toInt q)
  if a.snaps = 0 then IOM.raise .zeroDivisionError
  else if a.output_path = "" then IOM.raise (.unboundLocalError "save_params")
  else do
    match ← setup2 E a with
    | none => return some ⟨none, none⟩
    | some (s, physics_params, initial_time) => do
      match ← simulate2 E a s physics_params initial_time fuel with
      | none => return none
      | some _ => do
        let film ← makeMovie a.output_path x
        makeProperties E.props a.output_path a.buffer_length a.properties
        let curves ← makePlot2 sqrt a.output_path x t0_std
        return some ⟨film, curves⟩

end Verif.RunAll
