import Verif.NumPy.Arr

/-!
# `hw2d/utils/helpers.py`: printing a dictionary as a table

Strings are lists of characters.  Numbers are of an arbitrary type `ν`; the text
`f"{v:>{value_length}{value_format}}"` of a number is an arbitrary function
`fmt : ν → Str`.  The printed text is a value: `none` if nothing is printed.
-/

namespace Verif.Helpers

/-- Text, `utils/helpers.py` l.14-75 -/
abbrev Str := List Char

/-- A value of the dictionary: a number, a text, or anything else (arrays, lists, `None`,
...); `utils/helpers.py` l.7-11, 15 -/
inductive Val (ν : Type) where
  | number (v : ν)
  | text (s : Str)
  | other

variable {ν : Type}

/-- `is_number`, helpers.py l.7-11; `np.isscalar` is `True` of texts -/
def is_number : Val ν → Bool
  | .number _ => true
  | .text _ => true
  | .other => false

/-- `f"{v:>{value_length}{value_format}}"`, helpers.py l.67: a number format (such
as the default `.2g`) applied to a text raises a `ValueError` -/
def formatValue (fmt : ν → Str) : Val ν → Py Str
  | .number v => .ok (fmt v)
  | _ => .error .valueError

/-- `max([len(k) for k in l])`, helpers.py l.33-34, l.51-52, l.59 -/
def maxLen {γ : Type} (l : List (List γ)) : Py ℕ :=
  match (l.map List.length).max? with
  | none => .error .valueError
  | some m => .ok m

/-- `f"{s:<{w}}"`, helpers.py l.65 -/
def padRight (s : Str) (w : ℕ) : Str := s ++ List.replicate (w - s.length) ' '

/-- the slice `l[::i]` (`i ≥ 1`); `keys[j::i]`, `utils/helpers.py` l.45 -/
def everyNth {γ : Type} (i : ℕ) : List γ → List γ
  | [] => []
  | x :: xs => x :: everyNth i (xs.drop (i - 1))
termination_by l => l.length
decreasing_by simp only [List.length_drop, List.length_cons]; omega

/-- `keys[j::i]`, helpers.py l.46 -/
def columnKeys (keys : List Str) (i j : ℕ) : List Str := everyNth i (keys.drop j)

/-- `column_key_lengths`, helpers.py l.49-53 -/
def columnWidths (keys : List Str) (i : ℕ) : Py (List ℕ) :=
  (List.range i).mapM fun j => do
    let m ← maxLen (columnKeys keys i j)
    pure (m + 1)

/-- `line_length`, helpers.py l.47, l.54-56 -/
def lineLength (widths : List ℕ) (i : ℕ) (spacing key_spacing : Str) (value_length : ℕ) : ℕ :=
  (widths.map fun w => w + spacing.length + value_length).sum + (i - 1) * key_spacing.length

/-- `lines[line_idx].append(cell)`, helpers.py l.63-69 -/
def addCell (lines : List (List Str)) (idx : ℕ) (cell : Str) : Py (List (List Str)) :=
  if idx < lines.length then .ok (lines.modify idx (· ++ [cell])) else .error .indexError

/-- One cell, helpers.py l.64-68: `dictionary[k]` and the format -/
def cell (dict : List (Str × Val ν)) (fmt : ν → Str) (spacing : Str) (widths : List ℕ) (j : ℕ) (k : Str) : Py Str := do
  let some w := widths[j]? | .error (.keyError "column")
  let some v := dict.lookup k | .error (.keyError (String.ofList k))
  let t ← formatValue fmt v
  pure (padRight (k ++ [':']) w ++ spacing ++ t)

/-- The rows of the table, helpers.py l.59-69: the columns are filled one after the other -/
def buildLines (dict : List (Str × Val ν)) (fmt : ν → Str) (spacing : Str) (keys : List Str) (widths : List ℕ) (i : ℕ) :
    Py (List (List Str)) := do
  let number_of_lines ← maxLen ((List.range i).map fun j => columnKeys keys i j)
  (List.range i).foldlM (fun lines j =>
    (columnKeys keys i j).zipIdx.foldlM (fun lines (ki : Str × ℕ) => do
      let c ← cell dict fmt spacing widths j ki.1
      addCell lines ki.2 c) lines) (List.replicate number_of_lines [])

/-- The loop over the number of columns, helpers.py l.44-74 -/
def search (dict : List (Str × Val ν)) (fmt : ν → Str) (spacing key_spacing : Str) (max_line_length value_length : ℕ)
    (keys : List Str) : ℕ → Py (Option Str)
  | 0 => .ok none
  | i + 1 => do
    let widths ← columnWidths keys (i + 1)
    if lineLength widths (i + 1) spacing key_spacing value_length < max_line_length then do
      let lines ← buildLines dict fmt spacing keys widths (i + 1)
      pure (some (['\n'].intercalate (lines.map key_spacing.intercalate)))
    else search dict fmt spacing key_spacing max_line_length value_length keys i

/-- `format_print_dict`, helpers.py l.14-74.  `terminal` is the number of columns
of the terminal, `none` if `os.get_terminal_size` raises.  Widths are natural
numbers (a negative `max_line_length` behaves as 0).  The dictionary is the list
of its items. -/
def format_print_dict (dictionary : List (Str × Val ν)) (fmt : ν → Str) (spacing key_spacing : Str)
    (max_line_length value_length : ℕ) (terminal : Option ℕ) : Py (Option Str) := do
  let dict := dictionary.filter fun e => is_number e.2
  let _ ← maxLen (dict.map Prod.fst)
  let max_line_length := match terminal with
    | none => max_line_length
    | some c => min max_line_length c
  let keys := dict.map Prod.fst
  search dict fmt spacing key_spacing max_line_length value_length keys keys.length

end Verif.Helpers
