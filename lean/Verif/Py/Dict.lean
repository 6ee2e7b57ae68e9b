/-!
# Python dictionaries

`dict` as an association list in insertion order.  This is the model of a CPython (>= 3.7) `dict` and of
`collections.OrderedDict` used by every module of metaknowledge; nothing here models a particular file of /repo.
-/
namespace Verif.Py

/-- A Python `dict`: key/value pairs in insertion order. Well-formedness (no repeated key) is `Dict.WF`. -/
abbrev Dict (κ ν : Type _) := List (κ × ν)

namespace Dict
variable {κ ν : Type _} [DecidableEq κ]

/-- `d.get(k)`: the value stored under `k`, `none` standing for a `KeyError`. -/
def get? : Dict κ ν → κ → Option ν
  | [], _ => none
  | (k, v) :: d, a => if k = a then some v else get? d a

/-- `d[k] = v`: replaces in place, or appends at the end. -/
def set : Dict κ ν → κ → ν → Dict κ ν
  | [], a, w => [(a, w)]
  | (k, v) :: d, a, w => if k = a then (k, w) :: d else (k, v) :: set d a w

/-- `del d[k]` (no effect when absent; callers model the `KeyError`). -/
def erase : Dict κ ν → κ → Dict κ ν
  | [], _ => []
  | (k, v) :: d, a => if k = a then d else (k, v) :: erase d a

/-- `d.keys()` in insertion order. -/
def keys (d : Dict κ ν) : List κ := d.map Prod.fst

/-- `d.update(e)`. -/
def update (d e : Dict κ ν) : Dict κ ν := e.foldl (fun acc kv => acc.set kv.1 kv.2) d

/-- `k in d`. -/
def has (d : Dict κ ν) (k : κ) : Bool := (d.get? k).isSome

/-- No key is repeated. -/
def WF (d : Dict κ ν) : Prop := (keys d).Nodup

instance (d : Dict κ ν) : Decidable (WF d) := inferInstanceAs (Decidable (keys d).Nodup)

@[simp] theorem get?_nil (a : κ) : get? ([] : Dict κ ν) a = none := rfl

theorem get?_set (d : Dict κ ν) (a b : κ) (w : ν) :
    (d.set a w).get? b = if a = b then some w else d.get? b := by
  induction d with
  | nil => simp [set, get?]
  | cons p d ih =>
    obtain ⟨k, v⟩ := p
    by_cases h : k = a
    · subst h; by_cases h2 : k = b <;> simp [set, get?, h2]
    · simp only [set, h, if_false, get?]
      by_cases h2 : k = b
      · subst h2; simp [Ne.symm h]
      · simp [h2, ih]

@[simp] theorem get?_set_self (d : Dict κ ν) (a : κ) (w : ν) : (d.set a w).get? a = some w := by
  simp [get?_set]

theorem get?_set_ne (d : Dict κ ν) {a b : κ} (w : ν) (h : a ≠ b) : (d.set a w).get? b = d.get? b := by
  simp [get?_set, h]

theorem mem_keys_iff (d : Dict κ ν) (a : κ) : a ∈ keys d ↔ (d.get? a).isSome := by
  induction d with
  | nil => simp [keys]
  | cons p d ih =>
    obtain ⟨k, v⟩ := p
    simp only [keys, List.map_cons, List.mem_cons, get?] at *
    by_cases h : k = a
    · simp [h]
    · simp [h, Ne.symm h, ih]

theorem get?_eq_none_iff (d : Dict κ ν) (a : κ) : d.get? a = none ↔ a ∉ keys d := by
  rw [mem_keys_iff]; cases d.get? a <;> simp

theorem mem_keys_set (d : Dict κ ν) (a b : κ) (w : ν) : b ∈ keys (d.set a w) ↔ b = a ∨ b ∈ keys d := by
  rw [mem_keys_iff, mem_keys_iff, get?_set]
  by_cases h : a = b
  · simp [h]
  · simp [h, Ne.symm h]

theorem keys_set (d : Dict κ ν) (a : κ) (w : ν) :
    keys (d.set a w) = if a ∈ keys d then keys d else keys d ++ [a] := by
  induction d with
  | nil => simp [keys, set]
  | cons p d ih =>
    obtain ⟨k, v⟩ := p
    by_cases h : k = a
    · simp [set, h, keys]
    · have hne : ¬ a = k := fun e => h e.symm
      simp only [keys] at ih
      simp only [set, h, if_false, keys, List.map_cons, List.mem_cons, hne, false_or, ih]
      split <;> simp_all

theorem WF_set {d : Dict κ ν} (hd : WF d) (a : κ) (w : ν) : WF (d.set a w) := by
  unfold WF at *
  rw [keys_set]
  split
  · exact hd
  · rename_i h
    rw [List.nodup_append]
    refine ⟨hd, by simp, ?_⟩
    intro x hx y hy hxy
    simp at hy; subst hy; subst hxy; exact h hx

omit [DecidableEq κ] in
theorem WF_nil : WF ([] : Dict κ ν) := by simp [WF, keys]

theorem mem_of_get? {d : Dict κ ν} {a : κ} {v : ν} (h : d.get? a = some v) : (a, v) ∈ d := by
  induction d with
  | nil => simp at h
  | cons p d ih =>
    obtain ⟨k, w⟩ := p
    by_cases hk : k = a
    · simp [get?, hk] at h; simp [hk, h]
    · simp [get?, hk] at h; exact List.mem_cons_of_mem _ (ih h)

theorem get?_of_mem {d : Dict κ ν} (hd : WF d) {a : κ} {v : ν} (h : (a, v) ∈ d) : d.get? a = some v := by
  induction d with
  | nil => simp at h
  | cons p d ih =>
    obtain ⟨k, w⟩ := p
    simp only [WF, keys, List.map_cons, List.nodup_cons] at hd
    rcases List.mem_cons.1 h with h | h
    · cases h; simp [get?]
    · have : a ∈ keys d := List.mem_map.2 ⟨(a, v), h, rfl⟩
      have hne : k ≠ a := by rintro rfl; exact hd.1 this
      simp [get?, hne]; exact ih hd.2 h

theorem get?_eq_some_iff {d : Dict κ ν} (hd : WF d) (a : κ) (v : ν) : d.get? a = some v ↔ (a, v) ∈ d :=
  ⟨mem_of_get?, get?_of_mem hd⟩

theorem get?_erase (d : Dict κ ν) (hd : WF d) (a b : κ) :
    (d.erase a).get? b = if a = b then none else d.get? b := by
  induction d with
  | nil => simp [erase]
  | cons p d ih =>
    obtain ⟨k, v⟩ := p
    have hd' : WF d := by simp only [WF, keys, List.map_cons, List.nodup_cons] at hd; exact hd.2
    have hk : k ∉ keys d := by simp only [WF, keys, List.map_cons, List.nodup_cons] at hd; exact hd.1
    by_cases h : k = a
    · subst h
      simp only [erase, if_true, get?]
      by_cases h2 : k = b
      · subst h2; simp [(get?_eq_none_iff d k).2 hk]
      · simp [h2]
    · simp only [erase, h, if_false, get?, ih hd']
      by_cases h2 : k = b
      · subst h2; simp [Ne.symm h]
      · simp [h2]

theorem keys_erase (d : Dict κ ν) (a : κ) : keys (d.erase a) = (keys d).erase a := by
  induction d with
  | nil => simp [erase, keys]
  | cons p d ih =>
    obtain ⟨k, v⟩ := p
    by_cases h : k = a
    · simp [erase, h, keys]
    · simp only [keys] at ih
      simp only [erase, h, if_false, keys, List.map_cons, ih]
      rw [List.erase_cons_tail (by simp [h])]

theorem WF_erase {d : Dict κ ν} (hd : WF d) (a : κ) : WF (d.erase a) := by
  unfold WF at *; rw [keys_erase]; exact hd.erase a

theorem update_cons (d : Dict κ ν) (p : κ × ν) (e : Dict κ ν) :
    d.update (p :: e) = (d.set p.1 p.2).update e := rfl

@[simp] theorem update_nil (d : Dict κ ν) : d.update [] = d := rfl

theorem get?_update (d e : Dict κ ν) (he : WF e) (b : κ) :
    (d.update e).get? b = (e.get? b).or (d.get? b) := by
  induction e generalizing d with
  | nil => simp
  | cons p e ih =>
    obtain ⟨k, v⟩ := p
    simp only [WF, keys, List.map_cons, List.nodup_cons] at he
    rw [update_cons, ih _ he.2]
    by_cases h : k = b
    · subst h
      simp [get?, (get?_eq_none_iff e k).2 he.1]
    · simp [get?, h, get?_set_ne]

theorem WF_update {d : Dict κ ν} (hd : WF d) (e : Dict κ ν) : WF (d.update e) := by
  induction e generalizing d with
  | nil => exact hd
  | cons p e ih => rw [update_cons]; exact ih (WF_set hd _ _)

theorem get?_append (d e : Dict κ ν) (b : κ) : get? (d ++ e) b = (d.get? b).or (e.get? b) := by
  induction d with
  | nil => simp
  | cons p d ih =>
    obtain ⟨k, v⟩ := p
    by_cases h : k = b <;> simp [get?, h, ih]

theorem set_fresh (d : Dict κ ν) (k : κ) (v : ν) (hk : k ∉ keys d) : d.set k v = d ++ [(k, v)] := by
  induction d with
  | nil => rfl
  | cons y d ih =>
    obtain ⟨k', v'⟩ := y
    simp only [keys, List.map_cons, List.mem_cons, not_or] at hk
    simp only [set]
    rw [if_neg (fun h => hk.1 h.symm), ih hk.2]; rfl

theorem update_fresh (e d : Dict κ ν) (hd : ∀ k ∈ keys e, k ∉ keys d) (hw : WF e) : d.update e = d ++ e := by
  induction e generalizing d with
  | nil => simp [update]
  | cons x e ih =>
    obtain ⟨k, v⟩ := x
    rw [update_cons]
    unfold WF keys at hw
    simp only [List.map_cons, List.nodup_cons] at hw
    simp only []
    rw [set_fresh d k v (hd k (by simp [keys])), ih _ _ hw.2]
    · simp
    · intro j hj
      simp only [keys, List.map_append, List.mem_append, List.map_cons, List.map_nil, List.mem_singleton, not_or]
      refine ⟨hd j (by simp only [keys, List.map_cons, List.mem_cons]; exact Or.inr hj), ?_⟩
      rintro rfl; exact hw.1 hj

theorem update_nil_left (e : Dict κ ν) (h : WF e) : update [] e = e := by
  rw [update_fresh e [] (by simp [keys]) h]; rfl

end Dict
end Verif.Py
