import Verif.Model.Namespace

/-!
# Evaluation of `Namespace` operations
-/

namespace Verif.NS

variable {V : Type}

/-- the dictionary with keys `ks` and values `F` -/
def mk (ks : List String) (F : String → V) : NS V := ks.map fun k => (k, F k)

theorem mk_congr {ks : List String} {F G : String → V} (hFG : ∀ k ∈ ks, F k = G k) :
    mk ks F = mk ks G := List.map_congr_left fun k hk => by rw [hFG k hk]

@[simp] theorem keys_mk (ks : List String) (F : String → V) : (mk ks F).keys = ks := by
  simp [keys, mk, Function.comp_def]

theorem get?_nil (k : String) : get? ([] : NS V) k = none := rfl
theorem get?_cons (p : String × V) (ns : NS V) (k : String) :
    get? (p :: ns) k = if p.1 = k then some p.2 else get? ns k := by
  unfold get?
  by_cases h : p.1 = k <;> simp [h]

theorem get?_mk (ks : List String) (F : String → V) (k : String) :
    get? (mk ks F) k = if k ∈ ks then some (F k) else none := by
  induction ks with
  | nil => rfl
  | cons a ks ih =>
    change get? ((a, F a) :: mk ks F) k = _
    rw [get?_cons, ih]
    by_cases h : a = k
    · subst h; simp
    · have : k ≠ a := fun e => h e.symm
      simp [h, this]

theorem getItem_mk {ks : List String} (F : String → V) {k : String} (hk : k ∈ ks) :
    getItem (mk ks F) k = .ok (F k) := by
  unfold getItem; rw [get?_mk, if_pos hk]

theorem getItem_mk_of_not_mem {ks : List String} (F : String → V) {k : String} (hk : k ∉ ks) :
    getItem (mk ks F) k = .error (.keyError k) := by
  unfold getItem; rw [get?_mk, if_neg hk]

theorem without_mk (ks : List String) (F : String → V) (name : String) :
    without (mk ks F) name = mk (ks.filter (· ≠ name)) F := by
  unfold without mk
  rw [List.filter_map]
  rfl

theorem set_mk_of_mem {ks : List String} (F : String → V) {k : String} (v : V) (hk : k ∈ ks) :
    set (mk ks F) k v = mk ks (fun x => if x = k then v else F x) := by
  unfold set
  rw [keys_mk, if_pos hk]
  unfold mk
  rw [List.map_map]
  refine List.map_congr_left fun x _ => ?_
  by_cases hx : x = k <;> simp [hx]

theorem set_mk_of_not_mem {ks : List String} (F : String → V) {k : String} (v : V) (hk : k ∉ ks) :
    set (mk ks F) k v = mk (ks ++ [k]) (fun x => if x = k then v else F x) := by
  unfold set
  rw [keys_mk, if_neg hk]
  unfold mk
  rw [List.map_append]
  congr 1
  · refine List.map_congr_left fun x hx => ?_
    have : x ≠ k := fun e => hk (e ▸ hx)
    simp [this]
  · simp

theorem zipWith_mk (op : V → V → Py V) {ks ks' : List String} (F G H : String → V)
    (hk : ∀ k ∈ ks, k ∈ ks') (hop : ∀ k ∈ ks, op (G k) (F k) = .ok (H k)) :
    zipWith op (mk ks F) (mk ks' G) = .ok (mk ks H) := by
  induction ks with
  | nil => rfl
  | cons a ks ih =>
    change zipWith op ((a, F a) :: mk ks F) (mk ks' G) = _
    unfold zipWith
    rw [getItem_mk G (hk a (by simp)), Py.ok_bind, hop a (by simp), Py.ok_bind,
      ih (fun k h => hk k (by simp [h])) (fun k h => hop k (by simp [h]))]
    rfl

theorem mapWith_mk (op : V → V → Py V) {ks : List String} (F H : String → V) (v : V)
    (hop : ∀ k ∈ ks, op v (F k) = .ok (H k)) :
    mapWith op (mk ks F) v = .ok (mk ks H) := by
  induction ks with
  | nil => rfl
  | cons a ks ih =>
    change mapWith op ((a, F a) :: mk ks F) v = _
    unfold mapWith
    rw [hop a (by simp), Py.ok_bind, ih (fun k h => hop k (by simp [h]))]
    rfl

/-- every dictionary with distinct keys has the form `mk` -/
theorem eq_mk [Inhabited V] (ns : NS V) (hn : ns.keys.Nodup) :
    ns = mk ns.keys fun k => (ns.get? k).getD default := by
  induction ns with
  | nil => rfl
  | cons p ns ih =>
    have hk : keys (p :: ns) = p.1 :: keys ns := rfl
    rw [hk] at hn ⊢
    rw [List.nodup_cons] at hn
    change p :: ns = (p.1, _) :: mk _ _
    congr 1
    · simp [get?_cons]
    · conv_lhs => rw [ih hn.2]
      refine mk_congr fun k hk' => ?_
      have : p.1 ≠ k := fun e => hn.1 (e ▸ hk')
      rw [get?_cons, if_neg this]

end Verif.NS
