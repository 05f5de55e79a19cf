import Verif.Model.H5

/-!
# Model of `utils/io.py`
-/

namespace Verif.H5IO

open H5

variable {α β : Type} [Casts α β] [Zero α] [Inhabited α] [Inhabited β]

/-- one entry of the `buffer` dictionary: an array of shape `(rows.length,) + shape`,
`float32`; `run.py` l.173-179, `run2.py` l.220-229 -/
structure Buf (β : Type) where
  shape : RowShape
  rows : List (Cell β)

/-- the float operations used by `run.py`, `run2.py` and `utils/io.py`, without laws; `run.py`
l.120-128, 168-170, 227, 255-264; `run2.py` l.162-171, 349-372; `utils/io.py` l.21 -/
class FloatOps (α : Type) where
  /-- conversion of an `int` operand -/
  ofInt : ℤ → α
  add : α → α → α
  sub : α → α → α
  mul : α → α → α
  /-- `x / y`; a Python float raises for `y = 0` (NumPy gives `inf`/`nan`, on which `toInt` raises) -/
  div : α → α → Py α
  /-- `x <= y` -/
  le : α → α → Bool
  /-- `x < y` -/
  lt : α → α → Bool
  /-- `x == y` -/
  eq : α → α → Bool
  /-- `int(x)`; raises for `inf` and `nan` -/
  toInt : α → Py ℤ
  /-- `round(x)`; raises for `inf` and `nan` -/
  round : α → Py ℤ
  /-- `round(x, 4)` -/
  round4 : α → α

/-- `get_save_params`, l.8-29.  The order of insertion is that of the code;
`params["grid_pts"] = x`. -/
def get_save_params [FloatOps α] (params : NS (Attr α)) (dt : α) (snaps : ℕ) (x y : ℕ) (x_save y_save : Option ℕ)
    (recording_start_time : α) (adaptive_step_size : Bool) : NS (Attr α) :=
  let params := params.set "dt" (.num dt)
  let params := params.set "frame_dt" (.num (FloatOps.mul dt (FloatOps.ofInt snaps)))
  let params := params.set "x" (.int x)
  let params := params.set "y" (.int y)
  let params := params.set "x_save" (.int (x_save.getD x))
  let params := params.set "y_save" (.int (y_save.getD y))
  let params := params.set "grid_pts" (.int x)
  let params := params.set "initial_time" (.num recording_start_time)
  params.set "adaptive_step_size" (.bool adaptive_step_size)

/-- `hf.create_dataset(field, shape=(0, y_save, x_save), maxshape=(None, ...))`
and the like, for a list of names, l.45-63 -/
def createRows (path : String) (shape : RowShape) : List String → IOM α β Unit
  | [] => pure ()
  | name :: rest => do
    createDset path name (.rows shape [])
    createRows path shape rest

/-- the zero-filled `state_*` datasets, l.66-69 -/
def createStates (path : String) (y x : ℕ) : List String → IOM α β Unit
  | [] => pure ()
  | name :: rest => do
    createDset path ("state_" ++ name) (.full (Arr.tab y x fun _ _ => 0))
    createStates path y x rest

/-- the attributes, l.71-72 -/
def setAttrs (path : String) : NS (Attr α) → IOM α β Unit
  | [] => pure ()
  | (k, v) :: rest => do
    setAttr path k v
    setAttrs path rest

/-- `create_appendable_h5`, l.32-73, for `dtype = float32`; `y_save`, `x_save`,
`y`, `x` are the values of these entries of `params`.  `chunk_size` and the
compression have no effect on the contents. -/
def create_appendable_h5 (path : String) (params : NS (Attr α)) (y_save x_save y x : ℕ)
    (field_list properties : List String) (add_last_state : Bool) : IOM α β Unit := do
  openW path
  createRows path (.grid y_save x_save) field_list
  createRows path .one properties
  if add_last_state then createStates path y x ["density", "phi", "omega"]
  setAttrs path params

/-- the loop of `append_h5`, l.79-81.  For `buffer_index = 0` the slice
`[-0:]` selects everything. -/
def appendFields (path : String) (buffer_index : ℕ) : NS (Buf β) → IOM α β Unit
  | [] => pure ()
  | (name, b) :: rest => do
    let n ← len path name
    resize path name (n + buffer_index)
    let n' ← len path name
    let start := if buffer_index = 0 then 0 else n' - buffer_index
    writeFrom path name start (b.rows.take buffer_index)
    appendFields path buffer_index rest

/-- `append_h5`, l.76-81 -/
def append_h5 (path : String) (buffer : NS (Buf β)) (buffer_index : ℕ) : IOM α β Unit := do
  openA path
  appendFields path buffer_index buffer

/-- the loop of `update_last_state`, l.86-87: `hf[name][:] = value` on a
`float64` dataset of fixed shape.  Writing a `state_*` value into a resizable or flat dataset is
not modelled (`TypeError`); the run functions never do it. -/
def writeStates (path : String) : NS (Cell α) → IOM α β Unit
  | [] => pure ()
  | (name, v) :: rest => do
    match ← dset path name with
    | .full a => match (RowShape.grid a.h a.w).assign id v with
      | some (.arr a') => putDset path name (.full a')
      | _ => IOM.raise .typeError
    | _ => IOM.raise .typeError
    writeStates path rest

/-- `update_last_state`, l.84-87 -/
def update_last_state (path : String) (last_state : NS (Cell α)) : IOM α β Unit := do
  openR path
  writeStates path last_state

/-- `if field in new_val: buffer[field][buffer_index] = new_val[field]`, l.114-119;
a field missing in `new_val` is only reported on the console. -/
def fillRow (buffer_index : ℕ) (new_val : NS (Cell α)) (field : String) (b : Buf β) : Py (Buf β) :=
  match new_val.get? field with
  | some v =>
    if buffer_index < b.rows.length then
      match b.shape.assign Casts.f32 v with
      | some c => .ok { b with rows := b.rows.set buffer_index c }
      | none => .error .valueError
    else .error .indexError
  | none => .ok b

/-- the loop l.113-119 -/
def fillBuffer (buffer_index : ℕ) (new_val : NS (Cell α)) : NS (Buf β) → Py (NS (Buf β))
  | [] => .ok []
  | (field, b) :: rest => do
    let b' ← fillRow buffer_index new_val field b
    let rest' ← fillBuffer buffer_index new_val rest
    return (field, b') :: rest'

/-- `save_to_buffered_h5`, l.90-127.  The Python function changes `buffer` in
place; the model returns it (its contents after an exception are not
modelled). -/
def save_to_buffered_h5 (buffer : NS (Buf β)) (buffer_length buffer_index : ℕ) (new_val : NS (Cell α))
    (path : String) (last_state : NS (Cell α)) : IOM α β (NS (Buf β) × ℕ) := do
  let buffer ← IOM.lift (fillBuffer buffer_index new_val buffer)
  let buffer_index := buffer_index + 1
  if buffer_index = buffer_length then do
    append_h5 path buffer buffer_index
    if !last_state.isEmpty then update_last_state path last_state
    return (buffer, 0)
  else return (buffer, buffer_index)

/-- the loop of `create_fixed_h5`, l.141-149: `shape=(time, y, x)`, filled with 0 -/
def createFixed (path : String) (time y x : ℕ) : List String → IOM α β Unit
  | [] => pure ()
  | name :: rest => do
    createDset path name (.rows (.grid y x) (List.replicate time ((RowShape.grid y x).zero (Casts.f32 (0 : α)))))
    createFixed path time y x rest

/-- `create_fixed_h5`, l.130-149, for `dtype = float32` and positive `y`, `x`, `chunk_size`
(HDF5 refuses chunks of length 0).  `chunk_size` and `compression` have no effect on the
contents. -/
def create_fixed_h5 (path : String) (time y x : ℕ) (field_list : List String) : IOM α β Unit := do
  openW path
  createFixed path time y x field_list

/-- the loop l.166-168 of `load_h5_data`: `data[field] = h5_file[field][:]` -/
def loadDsets (path : String) : List String → NS (Dset α β) → IOM α β (NS (Dset α β))
  | [], data => pure data
  | field :: rest, data => do
    let d ← dset path field
    loadDsets path rest (data.set field d)

/-- `load_h5_data`, l.152-170: the whole datasets and all attributes -/
def load_h5_data (path : String) (field_list : List String) :
    IOM α β (NS (Dset α β) × (String → Option (Attr α))) := do
  openR path
  let data ← loadDsets path field_list []
  let f ← content path
  return (data, f.attrs)

/-- the values of a field read back as `float64`, l.193-196 -/
def loadField (path field : String) : IOM α β (Cell α) := do
  if ← hasKey path ("state_" ++ field) then
    match ← dset path ("state_" ++ field) with
    | .full a => return .arr a
    | _ => IOM.raise .typeError
  else
    match ← dset path field with
    | .rows _ r => match r.getLast? with
      | some (.arr a) => return .arr (a.map Casts.f64)
      | some (.num x) => return .num (Casts.f64 x)
      | none => IOM.raise .indexError
    | _ => IOM.raise .typeError

/-- the loop l.191-198 (the lengths are computed but not returned) -/
def loadFields (path : String) : List String → IOM α β (NS (Cell α))
  | [] => pure []
  | field :: rest => do
    let v ← loadField path field
    let _ ← len path field
    let vs ← loadFields path rest
    return (field, v) :: vs

/-- the keys of `physics_params`, l.207 -/
def restoredKeys : List String := ["dx", "N", "c1", "nu", "k0", "poisson_bracket_coeff", "kappa_coeff"]

/-- `{k: attributes[k] for k in ...}`, l.205-208 -/
def restoreParams (attrs : String → Option (Attr α)) : List String → Py (NS (Attr α))
  | [] => .ok []
  | k :: rest => match attrs k with
    | some v => do return (k, v) :: (← restoreParams attrs rest)
    | none => .error (.keyError k)

/-- `continue_h5_file`, l.173-209.  `state_*` datasets are preferred to the last
recorded row; `age` is the last entry of `time`.  The program keeps it as a `float32` scalar; here it is
converted at once, as `np.float64(plasma.age)` does (`run.py` l.194, `run2.py` l.251), the only use of it
that reaches a file.  `Namespace(**data, age=age)`
with a field called `age` would raise; the callers use density, omega, phi. -/
def continue_h5_file (path : String) (field_list : List String) : IOM α β (NS (Cell α) × NS (Attr α)) := do
  openR path
  let f ← content path
  let data ← loadFields path field_list
  let age ← match ← dset path "time" with
    | .rows _ r => match r.getLast? with
      | some (.num x) => pure (Casts.f64 x)
      | some (.arr _) => IOM.raise .typeError
      | none => IOM.raise .indexError
    | _ => IOM.raise .typeError
  let params ← IOM.lift (restoreParams f.attrs restoredKeys)
  return (data ++ [("age", .num age)], params)

end Verif.H5IO
