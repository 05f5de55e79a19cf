import Verif.Model.Memory

/-!
# Vocabulary of C132: dictionaries of arrays in memory
-/

namespace Verif.Spec

/-- what one sees when one looks at an entry -/
def look (heap : List (Arr ℝ)) : Memory.Obj → Option Val
  | .ref r => heap[r]?.map .arr
  | .num x => some (.num x)

/-- the entries of `s`, in order, look like those of `S` -/
def Shows (heap : List (Arr ℝ)) (s : NS Memory.Obj) (S : NS Val) : Prop :=
  s.map (fun p => (p.1, look heap p.2)) = S.map fun p => (p.1, some p.2)

/-- the arrays that a dictionary refers to -/
def arrays (s : NS Memory.Obj) : List ℕ := s.filterMap fun p => match p.2 with
  | .ref r => some r
  | .num _ => none

end Verif.Spec
