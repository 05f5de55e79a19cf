import Verif.Model.Namespace

/-!
# HDF5 layer: the part of `h5py` used by `utils/io.py` and `utils/run_properties.py`

`α` is the type of `float64` values, `β` the type of `float32` values; the
conversions between them are arbitrary functions (`Casts`), no law is assumed.

A file is a map from dataset names to datasets together with a map of
attributes (HDF5 groups are unordered).  Every operation that changes a file is
atomic and leaves a record of the file system before it, so that the set of
file systems a crash can leave behind is available (`crashStates`).

Not modelled: chunking, compression, HDF5's own caches and metadata (a process
that dies is assumed to leave the effect of the operations already done),
locking, two handles on one file.
-/

namespace Verif

/-- a value: number or two-dimensional array.  The values stored by `utils/io.py` l.81, 87, 115. -/
inductive Cell (α : Type) where
  | num (x : α)
  | arr (a : Arr α)

/-- dtype conversions between `float64` (`α`) and `float32` (`β`); `utils/io.py` l.35, 68,
194, 196; `run.py` l.174, 179 -/
class Casts (α β : Type) where
  f32 : α → β
  f64 : β → α

/-- shape of one row (one index of axis 0) of a resizable dataset or buffer; `utils/io.py`
l.49, 59; `run.py` l.174, 179 -/
inductive RowShape where
  /-- `(1,)` -/
  | one
  /-- `(y, x)` -/
  | grid (y x : ℕ)
  deriving DecidableEq, Repr

/-- NumPy/h5py assignment of a value to a row of the given shape, converting
every element and broadcasting dimensions of length 1; `none` if the value does
not fit.  `utils/io.py` l.81, 87, 115. -/
def RowShape.assign {α β : Type} [Inhabited α] (cast : α → β) : RowShape → Cell α → Option (Cell β)
  | .one, .num x => some (.num (cast x))
  | .one, .arr a => if a.h = 1 ∧ a.w = 1 then some (.num (cast (a.at' 0 0))) else none
  | .grid y x, .num c => some (.arr (Arr.tab y x fun _ _ => cast c))
  | .grid y x, .arr a =>
    if (a.h = y ∨ a.h = 1) ∧ (a.w = x ∨ a.w = 1) then
      some (.arr (Arr.tab y x fun i j => cast (a.at' (Arr.bidx a.h i) (Arr.bidx a.w j))))
    else none

/-- the fill value of a new row; `utils/io.py` l.80 (`resize`); `run.py` l.174, 179 (`np.zeros`) -/
def RowShape.zero {β : Type} (z : β) : RowShape → Cell β
  | .one => .num z
  | .grid y x => .arr (Arr.tab y x fun _ _ => z)

/-- a dataset; created in `utils/io.py` l.46-53, 56-63 (`rows`), l.67-69 (`full`),
`utils/run_properties.py` l.63 (`flat`) -/
inductive Dset (α β : Type) where
  /-- `float32`, resizable along axis 0 -/
  | rows (shape : RowShape) (rows : List (Cell β))
  /-- `float64` array of fixed shape -/
  | full (a : Arr α)
  /-- `float32`, shape `(n,)`, not resizable -/
  | flat (vals : List β)

/-- an attribute; `utils/io.py` l.72 -/
inductive Attr (α : Type) where
  | num (x : α)
  | int (z : ℤ)
  | bool (b : Bool)

/-- an HDF5 file; `utils/io.py` l.43 -/
structure H5 (α β : Type) where
  dsets : String → Option (Dset α β)
  attrs : String → Option (Attr α)

/-- the file without datasets and attributes; `utils/io.py` l.43 (mode `w`) -/
def H5.empty {α β : Type} : H5 α β := ⟨fun _ => none, fun _ => none⟩

/-- file system: path ↦ HDF5 file; `utils/io.py` l.43, 78, 85, 165, 187; `run.py` l.187 -/
abbrev FS (α β : Type) := String → Option (H5 α β)

/-- file system now, and the file systems before each change (oldest first).  The event record
has no counterpart in the code. -/
structure St (α β : Type) where
  fs : FS α β
  past : List (FS α β) := []

/-- a computation with file access that may raise; changes made before the
exception stay.  The functions of `utils/io.py` (l.32-209), `run.py` and `run2.py` are such
computations. -/
def IOM (α β X : Type) := St α β → Py X × St α β

namespace IOM

variable {α β X Y : Type}

/-- `return x` -/
def pure (x : X) : IOM α β X := fun σ => (.ok x, σ)
/-- one statement after the other: an exception skips the rest -/
def bind (m : IOM α β X) (f : X → IOM α β Y) : IOM α β Y := fun σ => match m σ with
  | (.ok x, σ') => f x σ'
  | (.error e, σ') => (.error e, σ')

instance : Monad (IOM α β) where
  pure := pure
  bind := bind

theorem bind_apply (m : IOM α β X) (f : X → IOM α β Y) (σ : St α β) :
    (m >>= f) σ = match m σ with
      | (.ok x, σ') => f x σ'
      | (.error e, σ') => (.error e, σ') := rfl
theorem pure_apply (x : X) (σ : St α β) : (Pure.pure x : IOM α β X) σ = (.ok x, σ) := rfl

theorem bind_ok {m : IOM α β X} {f : X → IOM α β Y} {σ σ' : St α β} {x : X} (h : m σ = (.ok x, σ')) :
    (m >>= f) σ = f x σ' := by rw [bind_apply, h]
theorem bind_error {m : IOM α β X} {f : X → IOM α β Y} {σ σ' : St α β} {e : PyErr} (h : m σ = (.error e, σ')) :
    (m >>= f) σ = (.error e, σ') := by rw [bind_apply, h]

/-- raise; `run.py` l.203, 208 -/
def raise (e : PyErr) : IOM α β X := fun σ => (.error e, σ)

/-- a pure computation that may raise.  A statement without file access, e.g. `utils/io.py`
l.205-208. -/
def lift (x : Py X) : IOM α β X := fun σ => (x, σ)

/-- change the file system (one event).  Used by `openW` and `write`: `utils/io.py` l.43, 80,
81, 87. -/
def mutate (f : FS α β → FS α β) : IOM α β Unit := fun σ => (.ok (), ⟨f σ.fs, σ.past ++ [σ.fs]⟩)

/-- All file systems that exist at some moment during the call `m`: what a
process that dies during the call may leave behind.  Not a function of the code: it describes a
killed `run` (`run.py`) or `run2.run`. -/
def crashStates (m : IOM α β X) (fs : FS α β) : List (FS α β) :=
  let σ' := (m ⟨fs, []⟩).2
  σ'.past ++ [σ'.fs]

end IOM

namespace H5

variable {α β : Type}

/-- `f[k] := v` for maps.  Used for `hf[...]` and `hf.attrs[...]`, `utils/io.py` l.43-72. -/
def upd {V : Type} (f : String → V) (k : String) (v : V) : String → V := fun k' => if k' = k then v else f k'

/-- `os.path.isfile(path)`; `run.py` l.187, `run2.py` l.237 -/
def isFile (path : String) : IOM α β Bool := fun σ => (.ok (σ.fs path).isSome, σ)

/-- `h5py.File(path, "w")`: create or truncate; `utils/io.py` l.43, 140 -/
def openW (path : String) : IOM α β Unit := IOM.mutate fun fs => upd fs path (some H5.empty)

/-- `h5py.File(path, "a")`: create if missing; `utils/io.py` l.78 -/
def openA (path : String) : IOM α β Unit := fun σ => match σ.fs path with
  | some _ => (.ok (), σ)
  | none => IOM.mutate (fun fs => upd fs path (some H5.empty)) σ

/-- `h5py.File(path, "r")` and `h5py.File(path, "r+")`: must exist; `utils/io.py` l.85, 165,
187; `utils/run_properties.py` l.44 -/
def openR (path : String) : IOM α β Unit := fun σ => match σ.fs path with
  | some _ => (.ok (), σ)
  | none => (.error .fileError, σ)

/-- the content of an open file (`openW`, `openA`, `openR` guarantee that it exists);
`utils/io.py` l.43-72, 78-81 -/
def content (path : String) : IOM α β (H5 α β) := fun σ => match σ.fs path with
  | some f => (.ok f, σ)
  | none => (.error .fileError, σ)

/-- replace the content of an open file (one event); `utils/io.py` l.43-72, 78-81 -/
def write (path : String) (f : H5 α β) : IOM α β Unit := IOM.mutate fun fs => upd fs path (some f)

/-- `name in hf.keys()`; `utils/io.py` l.193, `utils/run_properties.py` l.57, 61 -/
def hasKey (path name : String) : IOM α β Bool := do
  let f ← content path
  return (f.dsets name).isSome

/-- `hf[name]`; `utils/io.py` l.80, 81, 87, 168, 194-200 -/
def dset (path name : String) : IOM α β (Dset α β) := do
  let f ← content path
  match f.dsets name with
  | some d => return d
  | none => IOM.raise (.keyError name)

/-- store a dataset; `utils/io.py` l.80, 81, 87 -/
def putDset (path name : String) (d : Dset α β) : IOM α β Unit := do
  let f ← content path
  write path { f with dsets := upd f.dsets name (some d) }

/-- `hf.create_dataset(name, ...)`; an existing name raises `ValueError`; `utils/io.py`
l.46-53, 56-63, 67-69, `utils/run_properties.py` l.63 -/
def createDset (path name : String) (d : Dset α β) : IOM α β Unit := do
  if ← hasKey path name then IOM.raise .valueError else putDset path name d

/-- `del hf[name]`; `utils/run_properties.py` l.60 -/
def delDset (path name : String) : IOM α β Unit := do
  let _ ← dset path name
  let f ← content path
  write path { f with dsets := upd f.dsets name none }

/-- `hf.attrs[key] = value`; `utils/io.py` l.72 -/
def setAttr (path key : String) (v : Attr α) : IOM α β Unit := do
  let f ← content path
  write path { f with attrs := upd f.attrs key (some v) }

/-- `len(hf[name])`; `utils/io.py` l.80, 198, `utils/run_properties.py` l.51 -/
def len (path name : String) : IOM α β ℕ := do
  match ← dset path name with
  | .rows _ r => return r.length
  | .full a => return a.h
  | .flat v => return v.length

/-- `hf[name].resize(n, axis=0)` for a resizable dataset: rows beyond the old
end are filled with 0, superfluous rows are cut off.  Other datasets are not
resizable (`TypeError`).  `utils/io.py` l.80. -/
def resize [Casts α β] [Zero α] (path name : String) (n : ℕ) : IOM α β Unit := do
  match ← dset path name with
  | .rows s r =>
    putDset path name (.rows s (r.take n ++ List.replicate (n - r.length) (s.zero (Casts.f32 (0 : α)))))
  | _ => IOM.raise .typeError

/-- copy of one `float32` row into a dataset of row shape `s`; `utils/io.py` l.81 -/
def fit [Inhabited β] (s : RowShape) (v : Cell β) : Py (Cell β) := match s.assign id v with
  | some c => .ok c
  | none => .error .typeError

/-- `hf[name][start:] = data` for a resizable dataset.  The number of selected
rows must equal the number of given rows; a single given row is broadcast.  `utils/io.py` l.81. -/
def writeFrom [Inhabited β] (path name : String) (start : ℕ) (data : List (Cell β)) : IOM α β Unit := do
  match ← dset path name with
  | .rows s r => do
    let n := r.length - start
    let data' ← IOM.lift (data.mapM (fit s))
    if data'.length = n then putDset path name (.rows s (r.take start ++ data'))
    else if data'.length = 1 then
      putDset path name (.rows s (r.take start ++ (List.replicate n data').flatten))
    else IOM.raise .typeError
  | _ => IOM.raise .typeError

end H5

end Verif
