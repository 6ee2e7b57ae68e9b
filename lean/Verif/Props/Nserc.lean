import Verif.Model.Nserc
import Verif.Spec.Nserc
import Mathlib.Data.List.Dedup
import Mathlib.Data.List.Perm.Basic

/-!
# C48: NSERC grants are merged without loss
-/
set_option autoImplicit false
set_option linter.unusedSimpArgs false
namespace Verif.Props.Nserc
open Verif.Py Verif.Model.Nserc Verif.Spec.Nserc

/-! ## Values -/

theorem join_append (sep : Str) (a b : List Str) (ha : a ≠ []) (hb : b ≠ []) : Str.join sep (a ++ b) = Str.join sep a ++ sep ++ Str.join sep b := by
  induction a with
  | nil => exact absurd rfl ha
  | cons x a ih =>
    cases a with
    | nil => rw [List.singleton_append, Str.join_cons _ _ _ hb]; rfl
    | cons y a =>
      rw [List.cons_append, Str.join_cons sep x (y :: a ++ b) (by simp), ih (by simp), Str.join_cons sep x (y :: a) (by simp)]
      simp

theorem join_ne_nil (sep : Str) (a : List Str) (ha : a ≠ []) (h : ∀ x ∈ a, x ≠ []) : Str.join sep a ≠ [] := by
  cases a with
  | nil => exact absurd rfl ha
  | cons x a =>
    cases a with
    | nil => exact h x (by simp)
    | cons y a => rw [Str.join_cons _ _ _ (by simp)]; simp [h x (by simp)]

/-- How two values of a column are put together. -/
def combine (a b : Option Str) : Option Str :=
  if b.getD [] = [] then a else if a.getD [] = [] then b else some (a.getD [] ++ "; ".toList ++ b.getD [])

theorem valuesOf_append (f : Str) (a b : List Row) : valuesOf f (a ++ b) = valuesOf f a ++ valuesOf f b := by
  unfold valuesOf; simp

theorem valuesOf_ne (f : Str) (a : List Row) : ∀ v ∈ valuesOf f a, v ≠ [] := by
  intro v hv; unfold valuesOf at hv; simpa using (List.mem_filter.1 hv).2

theorem merged_getD (f : Str) (rows : List Row) : ((merged f rows).getD [] = [] ↔ valuesOf f rows = []) := by
  unfold merged
  by_cases h : valuesOf f rows = []
  · rw [if_pos h]
    constructor
    · exact fun _ => h
    · intro _
      cases rows with
      | nil => rfl
      | cons r rows =>
        have : (Dict.get? r f).getD [] = [] := by
          by_contra hn
          unfold valuesOf at h
          simp only [List.map_cons] at h
          rw [List.filter_cons_of_pos (by simpa using hn)] at h
          cases h
        simpa using this
  · rw [if_neg h]
    simp only [Option.getD_some, h, iff_false]
    exact join_ne_nil _ _ h (valuesOf_ne f rows)

theorem merged_append (f : Str) (a b : List Row) (ha : a ≠ []) : merged f (a ++ b) = combine (merged f a) (merged f b) := by
  unfold combine
  by_cases hb : valuesOf f b = []
  · rw [if_pos ((merged_getD f b).2 hb)]
    unfold merged
    rw [valuesOf_append, hb, List.append_nil]
    cases a with
    | nil => exact absurd rfl ha
    | cons r a => rfl
  · rw [if_neg (fun h => hb ((merged_getD f b).1 h))]
    by_cases hva : valuesOf f a = []
    · rw [if_pos ((merged_getD f a).2 hva)]
      unfold merged
      rw [valuesOf_append, hva, List.nil_append, if_neg hb, if_neg hb]
    · rw [if_neg (fun h => hva ((merged_getD f a).1 h))]
      unfold merged
      rw [valuesOf_append, if_neg hva, if_neg hb, if_neg (by simp [hva])]
      simp only [Option.getD_some]
      rw [join_append _ _ _ hva hb]

theorem merged_single (f : Str) (r : Row) : merged f [r] = Dict.get? r f := by
  unfold merged valuesOf
  by_cases h : (Dict.get? r f).getD [] = []
  · simp [h]
  · simp only [List.map_cons, List.map_nil]
    rw [List.filter_cons_of_pos (by simpa using h)]
    rw [if_neg (by simp), List.filter_nil]
    cases hg : Dict.get? r f with
    | none => rw [hg] at h; simp at h
    | some v => rfl

theorem addField_get (d : Row) (p : Str × Str) (f : Str) : Dict.get? (addField d p) f = if p.1 = f then combine (Dict.get? d f) (some p.2) else Dict.get? d f := by
  unfold addField combine
  by_cases hp : p.2 = []
  · simp [hp]
  · rw [if_neg hp]
    by_cases hf : p.1 = f
    · subst hf
      simp only [if_true, Option.getD_some, if_neg hp]
      split <;> rw [Dict.get?_set, if_pos rfl]
    · rw [if_neg hf]
      split <;> rw [Dict.get?_set, if_neg hf]

theorem addField_WF (d : Row) (hd : Dict.WF d) (p : Str × Str) : Dict.WF (addField d p) := by
  unfold addField
  split
  · exact hd
  · split <;> exact Dict.WF_set hd _ _

theorem fold_get (d e : Row) (he : Dict.WF e) (f : Str) : Dict.get? (e.foldl addField d) f = combine (Dict.get? d f) (Dict.get? e f) := by
  induction e generalizing d with
  | nil => simp [combine]
  | cons p e ih =>
    obtain ⟨k, v⟩ := p
    unfold Dict.WF Dict.keys at he
    simp only [List.map_cons, List.nodup_cons] at he
    rw [List.foldl_cons, ih _ he.2, addField_get]
    by_cases hk : k = f
    · subst hk
      have : Dict.get? e k = none := (Dict.get?_eq_none_iff e k).2 he.1
      rw [if_pos rfl, this]
      simp [combine, Dict.get?]
    · rw [if_neg hk]
      simp [Dict.get?, hk]

theorem fold_WF (d e : Row) (hd : Dict.WF d) : Dict.WF (e.foldl addField d) := by
  induction e generalizing d with
  | nil => exact hd
  | cons p e ih => exact ih _ (addField_WF d hd p)

/-! ## Sets of grants -/

def goodKey (k : Str) : Sum Str (List Str) := .inl ("NSERC:".toList ++ k)

/-- The set holds, for each key, what it should after these rows: nothing if there is no such row, else one grant with the merged values. A member
that is not bad is found under its present key. -/
structure Inv (S : GSet) (rows : List (Str × Row)) : Prop where
  stored : ∀ e ∈ S, e.2.bad = false → e.1 = e.2.key
  storedBad : ∀ e ∈ S, e.2.bad = true → ∃ vs, e.1 = .inr vs
  wf : ∀ e ∈ S, Dict.WF e.2.fields
  ids : ∀ e ∈ S, e.2.bad = false → ∃ k, k ≠ [] ∧ e.2.id = "NSERC:".toList ++ k
  none : ∀ k, k ≠ [] → rowsOf k rows = [] → S.filter (fun e => e.2.key = goodKey k) = []
  one : ∀ k, k ≠ [] → rowsOf k rows ≠ [] → ∃ e, S.filter (fun e => e.2.key = goodKey k) = [e] ∧ ∀ f, Dict.get? e.2.fields f = merged f (rowsOf k rows)

theorem key_update (g o : Grant) (hg : g.bad = false) : (g.update o).key = g.key := by
  unfold Grant.update Grant.key; simp [hg]

theorem key_good (g : Grant) (k : Str) : g.key = goodKey k ↔ g.bad = false ∧ g.id = "NSERC:".toList ++ k := by
  unfold Grant.key goodKey
  cases g.bad <;> simp

theorem isIn_good (S : GSet) (rows : List (Str × Row)) (h : Inv S rows) (g : Grant) (k : Str) (hg : g.key = goodKey k) :
    isIn S g = true ↔ S.filter (fun e => e.2.key = goodKey k) ≠ [] := by
  unfold isIn
  rw [List.any_eq_true]
  constructor
  · rintro ⟨e, he, hk⟩ hn
    have := List.filter_eq_nil_iff.1 hn e he
    simp [hg] at hk this
    exact this hk.2
  · intro hn
    obtain ⟨e, he⟩ := List.exists_mem_of_ne_nil _ hn
    obtain ⟨he, hk⟩ := List.mem_filter.1 he
    have hk : e.2.key = goodKey k := by simpa using hk
    refine ⟨e, he, ?_⟩
    have := h.stored e he ((key_good _ _).1 hk).1
    simp [this, hk, hg]

theorem updateFirst_mem (g : Grant) (S : GSet) (e : Sum Str (List Str) × Grant) (he : e ∈ updateFirst g S) :
    e ∈ S ∨ ∃ e0 ∈ S, e0.2.key = g.key ∧ e = (e0.1, e0.2.update g) := by
  induction S with
  | nil => cases he
  | cons x S ih =>
    rw [updateFirst] at he
    split at he
    · rename_i hx
      rcases List.mem_cons.1 he with rfl | he
      · exact Or.inr ⟨x, by simp, hx, rfl⟩
      · exact Or.inl (by simp [he])
    · rcases List.mem_cons.1 he with rfl | he
      · exact Or.inl (by simp)
      · rcases ih he with h | ⟨e0, h0, h1, h2⟩
        · exact Or.inl (by simp [h])
        · exact Or.inr ⟨e0, by simp [h0], h1, h2⟩

theorem key_good_bad (g : Grant) (k : Str) (hb : g.bad = true) : g.key ≠ goodKey k := by
  intro h; rw [((key_good g k).1 h).1] at hb; cases hb

theorem updateFirst_filter (g : Grant) (k j : Str) (hg : g.key = goodKey k) (S : GSet) :
    (updateFirst g S).filter (fun e => e.2.key = goodKey j) =
      if j = k then updateFirst g (S.filter (fun e => e.2.key = goodKey k)) else S.filter (fun e => e.2.key = goodKey j) := by
  induction S with
  | nil => simp [updateFirst]
  | cons x S ih =>
    rw [updateFirst]
    by_cases hx : x.2.key = g.key
    · rw [if_pos hx]
      have hxk : x.2.key = goodKey k := hx.trans hg
      have hux : (x.2.update g).key = goodKey k := by rw [key_update _ _ ((key_good _ _).1 hxk).1, hxk]
      by_cases hj : j = k
      · subst hj
        rw [if_pos rfl, List.filter_cons_of_pos (by simpa using hux), List.filter_cons_of_pos (by simpa using hxk), updateFirst, if_pos hx]
      · have hne : goodKey k ≠ goodKey j := by unfold goodKey; simp [Ne.symm hj]
        rw [if_neg hj, List.filter_cons_of_neg (by simpa [hux] using hne), List.filter_cons_of_neg (by simpa [hxk] using hne)]
    · rw [if_neg hx]
      by_cases hj : j = k
      · subst hj
        have hxk : x.2.key ≠ goodKey j := fun h => hx (h.trans hg.symm)
        rw [if_pos rfl] at ih ⊢
        rw [List.filter_cons_of_neg (by simpa using hxk), List.filter_cons_of_neg (by simpa using hxk), ih]
      · rw [if_neg hj] at ih ⊢
        by_cases hxj : x.2.key = goodKey j
        · rw [List.filter_cons_of_pos (by simpa using hxj), List.filter_cons_of_pos (by simpa using hxj), ih]
        · rw [List.filter_cons_of_neg (by simpa using hxj), List.filter_cons_of_neg (by simpa using hxj), ih]

theorem updateFirst_filter_bad (g : Grant) (j : Str) (hg : g.bad = true) (S : GSet) :
    (updateFirst g S).filter (fun e => e.2.key = goodKey j) = S.filter (fun e => e.2.key = goodKey j) := by
  induction S with
  | nil => rfl
  | cons x S ih =>
    rw [updateFirst]
    by_cases hx : x.2.key = g.key
    · rw [if_pos hx]
      have hxb : x.2.bad = true := by
        cases hb : x.2.bad with
        | true => rfl
        | false => unfold Grant.key at hx; simp [hb, hg] at hx
      rw [List.filter_cons_of_neg (by simpa using key_good_bad (x.2.update g) j hxb), List.filter_cons_of_neg (by simpa using key_good_bad x.2 j hxb)]
    · rw [if_neg hx]
      by_cases hxj : x.2.key = goodKey j
      · rw [List.filter_cons_of_pos (by simpa using hxj), List.filter_cons_of_pos (by simpa using hxj), ih]
      · rw [List.filter_cons_of_neg (by simpa using hxj), List.filter_cons_of_neg (by simpa using hxj), ih]

theorem rowsOf_snoc (k : Str) (rows : List (Str × Row)) (r : Str × Row) : rowsOf k (rows ++ [r]) = rowsOf k rows ++ if cle r.2 = k then [r.2] else [] := by
  unfold rowsOf
  by_cases h : cle r.2 = k <;> simp [h]

theorem addRow_inv (hash : Str → Str) (S : GSet) (rows : List (Str × Row)) (h : Inv S rows) (r : Str × Row) (hr : Dict.WF r.2) : Inv (addRow hash S r) (rows ++ [r]) := by
  unfold addRow
  obtain ⟨g, hg⟩ : ∃ g, g = mkGrant hash r.1 r.2 := ⟨_, rfl⟩
  simp only [← hg]
  have hfields : g.fields = r.2 := by rw [hg]; unfold mkGrant; split <;> rfl
  by_cases hc : cle r.2 = []
  · -- a row without key
    have hb : g.bad = true := by
      rw [hg]; unfold mkGrant; rw [if_pos (by exact hc)]
    have hrows : ∀ k, k ≠ [] → rowsOf k (rows ++ [r]) = rowsOf k rows := by
      intro k hk
      rw [rowsOf_snoc, if_neg (by rw [hc]; exact Ne.symm hk), List.append_nil]
    by_cases hin : isIn S g = true
    · rw [if_pos hin]
      have hmem := updateFirst_mem g S
      have hkb : ∀ e0 : Sum Str (List Str) × Grant, e0.2.key = g.key → e0.2.bad = true := by
        intro e0 hk
        cases hb0 : e0.2.bad with
        | true => rfl
        | false => unfold Grant.key at hk; simp [hb0, hb] at hk
      refine ⟨?_, ?_, ?_, ?_, ?_, ?_⟩
      · intro e he heb
        rcases hmem e he with h' | ⟨e0, h0, h1, rfl⟩
        · exact h.stored e h' heb
        · have := hkb e0 h1
          unfold Grant.update at heb
          simp [this] at heb
      · intro e he heb
        rcases hmem e he with h' | ⟨e0, h0, h1, rfl⟩
        · exact h.storedBad e h' heb
        · exact h.storedBad e0 h0 (hkb e0 h1)
      · intro e he
        rcases hmem e he with h' | ⟨e0, h0, h1, rfl⟩
        · exact h.wf e h'
        · exact fold_WF _ _ (h.wf e0 h0)
      · intro e he heb
        rcases hmem e he with h' | ⟨e0, h0, h1, rfl⟩
        · exact h.ids e h' heb
        · have := hkb e0 h1
          unfold Grant.update at heb
          simp [this] at heb
      · intro k hk hn
        rw [updateFirst_filter_bad g k hb]
        exact h.none k hk (by rwa [hrows k hk] at hn)
      · intro k hk hn
        rw [updateFirst_filter_bad g k hb, hrows k hk]
        exact h.one k hk (by rwa [hrows k hk] at hn)
    · rw [if_neg hin]
      have hf : ∀ k, (S ++ [(g.key, g)]).filter (fun e => e.2.key = goodKey k) = S.filter (fun e => e.2.key = goodKey k) := by
        intro k
        rw [List.filter_append, List.filter_cons_of_neg (by simpa using key_good_bad g k hb)]
        simp
      refine ⟨?_, ?_, ?_, ?_, ?_, ?_⟩
      · intro e he heb
        rcases List.mem_append.1 he with h' | h'
        · exact h.stored e h' heb
        · simp at h'; subst h'; rfl
      · intro e he heb
        rcases List.mem_append.1 he with h' | h'
        · exact h.storedBad e h' heb
        · simp at h'; subst h'; exact ⟨_, by unfold Grant.key; rw [if_pos hb]⟩
      · intro e he
        rcases List.mem_append.1 he with h' | h'
        · exact h.wf e h'
        · simp at h'; subst h'; rw [hfields]; exact hr
      · intro e he heb
        rcases List.mem_append.1 he with h' | h'
        · exact h.ids e h' heb
        · simp at h'; subst h'; rw [hb] at heb; cases heb
      · intro k hk hn
        rw [hf]; exact h.none k hk (by rwa [hrows k hk] at hn)
      · intro k hk hn
        rw [hf, hrows k hk]; exact h.one k hk (by rwa [hrows k hk] at hn)
  · -- a row with a key
    obtain ⟨k0, hk0⟩ : ∃ k0, k0 = cle r.2 := ⟨_, rfl⟩
    rw [← hk0] at hc
    have hb : g.bad = false := by
      rw [hg]; unfold mkGrant; rw [if_neg (by rw [hk0] at hc; exact hc)]
    have hid : g.id = "NSERC:".toList ++ k0 := by
      rw [hg]; unfold mkGrant; rw [if_neg (by rw [hk0] at hc; exact hc), hk0]; rfl
    have hgk : g.key = goodKey k0 := (key_good g k0).2 ⟨hb, hid⟩
    have hrows : ∀ k, k ≠ k0 → rowsOf k (rows ++ [r]) = rowsOf k rows := by
      intro k hk
      rw [rowsOf_snoc, if_neg (by rw [← hk0]; exact Ne.symm hk), List.append_nil]
    have hrows0 : rowsOf k0 (rows ++ [r]) = rowsOf k0 rows ++ [r.2] := by rw [rowsOf_snoc, if_pos hk0.symm]
    have hin := isIn_good S rows h g k0 hgk
    by_cases hi : isIn S g = true
    · rw [if_pos hi]
      have hne := hin.1 hi
      have hex : rowsOf k0 rows ≠ [] := fun e => hne (h.none k0 hc e)
      obtain ⟨e1, he1, hv1⟩ := h.one k0 hc hex
      have he1k : e1.2.key = goodKey k0 := by
        have : e1 ∈ S.filter (fun e => e.2.key = goodKey k0) := by rw [he1]; simp
        simpa using (List.mem_filter.1 this).2
      have hmem := updateFirst_mem g S
      have hkb : ∀ e0 : Sum Str (List Str) × Grant, e0.2.key = g.key → e0.2.bad = false := fun e0 hk => ((key_good _ _).1 (hk.trans hgk)).1
      refine ⟨?_, ?_, ?_, ?_, ?_, ?_⟩
      · intro e he heb
        rcases hmem e he with h' | ⟨e0, h0, h1, rfl⟩
        · exact h.stored e h' heb
        · rw [key_update _ _ (hkb e0 h1)]; exact h.stored e0 h0 (hkb e0 h1)
      · intro e he heb
        rcases hmem e he with h' | ⟨e0, h0, h1, rfl⟩
        · exact h.storedBad e h' heb
        · have := hkb e0 h1
          unfold Grant.update at heb
          simp [this] at heb
      · intro e he
        rcases hmem e he with h' | ⟨e0, h0, h1, rfl⟩
        · exact h.wf e h'
        · exact fold_WF _ _ (h.wf e0 h0)
      · intro e he heb
        rcases hmem e he with h' | ⟨e0, h0, h1, rfl⟩
        · exact h.ids e h' heb
        · exact h.ids e0 h0 (hkb e0 h1)
      · intro k hk hn
        rw [updateFirst_filter g k0 k hgk]
        by_cases hkk : k = k0
        · subst hkk; rw [hrows0] at hn; simp at hn
        · rw [if_neg hkk]; exact h.none k hk (by rwa [hrows k hkk] at hn)
      · intro k hk hn
        rw [updateFirst_filter g k0 k hgk]
        by_cases hkk : k = k0
        · subst hkk
          rw [if_pos rfl, he1, updateFirst, if_pos (he1k.trans hgk.symm)]
          refine ⟨_, rfl, ?_⟩
          intro f
          show Dict.get? (g.fields.foldl addField e1.2.fields) f = _
          rw [hfields, fold_get _ _ hr, hv1, hrows0, merged_append _ _ _ hex, merged_single]
        · rw [if_neg hkk, hrows k hkk]; exact h.one k hk (by rwa [hrows k hkk] at hn)
    · rw [if_neg hi]
      have hnil : S.filter (fun e => e.2.key = goodKey k0) = [] := by
        by_contra hne; exact hi (hin.2 hne)
      have hex : rowsOf k0 rows = [] := by
        by_contra hne
        obtain ⟨e, he, -⟩ := h.one k0 hc hne
        rw [hnil] at he; cases he
      have hf : ∀ k, (S ++ [(g.key, g)]).filter (fun e => e.2.key = goodKey k) = S.filter (fun e => e.2.key = goodKey k) ++ if k = k0 then [(g.key, g)] else [] := by
        intro k
        rw [List.filter_append]
        congr 1
        by_cases hkk : k = k0
        · subst hkk; rw [if_pos rfl, List.filter_cons_of_pos (by simpa using hgk)]; rfl
        · rw [if_neg hkk, List.filter_cons_of_neg (by simp [hgk, goodKey, Ne.symm hkk])]; rfl
      refine ⟨?_, ?_, ?_, ?_, ?_, ?_⟩
      · intro e he heb
        rcases List.mem_append.1 he with h' | h'
        · exact h.stored e h' heb
        · simp at h'; subst h'; rfl
      · intro e he heb
        rcases List.mem_append.1 he with h' | h'
        · exact h.storedBad e h' heb
        · simp at h'; subst h'; rw [hb] at heb; cases heb
      · intro e he
        rcases List.mem_append.1 he with h' | h'
        · exact h.wf e h'
        · simp at h'; subst h'; rw [hfields]; exact hr
      · intro e he heb
        rcases List.mem_append.1 he with h' | h'
        · exact h.ids e h' heb
        · simp at h'; subst h'; exact ⟨k0, hc, hid⟩
      · intro k hk hn
        rw [hf]
        by_cases hkk : k = k0
        · subst hkk; rw [hrows0] at hn; simp at hn
        · rw [if_neg hkk, List.append_nil]; exact h.none k hk (by rwa [hrows k hkk] at hn)
      · intro k hk hn
        rw [hf]
        by_cases hkk : k = k0
        · subst hkk
          rw [if_pos rfl, hnil, hrows0, hex]
          refine ⟨_, rfl, ?_⟩
          intro f
          show Dict.get? g.fields f = _
          rw [hfields, List.nil_append, merged_single]
        · rw [if_neg hkk, List.append_nil, hrows k hkk]; exact h.one k hk (by rwa [hrows k hkk] at hn)

theorem inv_nil : Inv [] [] := by
  refine ⟨by simp, by simp, by simp, by simp, by simp, ?_⟩
  intro k _ h
  exact absurd rfl h

theorem parse_inv (hash : Str → Str) (rows : List (Str × Row)) (hr : ∀ r ∈ rows, Dict.WF r.2) : Inv (parseFile hash rows) rows := by
  unfold parseFile
  suffices h : ∀ S done, Inv S done → Inv (rows.foldl (addRow hash) S) (done ++ rows) by simpa using h [] [] inv_nil
  induction rows with
  | nil => intro S done h; simpa using h
  | cons r rows ih =>
    intro S done h
    have := ih (fun x hx => hr x (by simp [hx])) _ _ (addRow_inv hash S done h r (hr r (by simp)))
    simpa using this

/-! ## Directories -/

theorem rowsOf_append (k : Str) (a b : List (Str × Row)) : rowsOf k (a ++ b) = rowsOf k a ++ rowsOf k b := by
  unfold rowsOf; simp

theorem filter_one_eq {α : Type} (p : α → Bool) (l : List α) (x y : α) (h : l.filter p = [x]) (hy : y ∈ l) (hp : p y = true) : y = x := by
  have : y ∈ l.filter p := List.mem_filter.2 ⟨hy, hp⟩
  rw [h] at this
  simpa using this

/-- The members with a key. -/
def atKey (S : GSet) (k : Str) : GSet := S.filter (fun e => e.2.key = goodKey k)

theorem mem_atKey (S : GSet) (k : Str) (e : Sum Str (List Str) × Grant) : e ∈ atKey S k ↔ e ∈ S ∧ e.2.key = goodKey k := by
  unfold atKey; simp [List.mem_filter]

/-- Members that are not bad are found under their present key. -/
def Stored (S : GSet) : Prop := ∀ e ∈ S, e.2.bad = false → e.1 = e.2.key

theorem sameIn_good (S : GSet) (hS : Stored S) (e : Sum Str (List Str) × Grant) (k : Str) (h1 : e.1 = goodKey k) (h2 : e.2.key = goodKey k) :
    sameIn S e = true ↔ atKey S k ≠ [] := by
  unfold sameIn
  rw [List.any_eq_true]
  constructor
  · rintro ⟨x, hx, hk⟩ hn
    have hk := of_decide_eq_true hk
    have : x ∈ atKey S k := (mem_atKey _ _ _).2 ⟨hx, hk.2.trans h2⟩
    rw [hn] at this
    cases this
  · intro hn
    obtain ⟨x, hx⟩ := List.exists_mem_of_ne_nil _ hn
    obtain ⟨hx, hk⟩ := (mem_atKey _ _ _).1 hx
    exact ⟨x, hx, decide_eq_true ⟨by rw [hS x hx ((key_good _ _).1 hk).1, hk, h1], by rw [hk, h2]⟩⟩

theorem union_mem (S G : GSet) (e : Sum Str (List Str) × Grant) (h : e ∈ union S G) : e ∈ S ∨ e ∈ G := by
  unfold union at h
  induction G generalizing S with
  | nil => exact Or.inl h
  | cons g G ih =>
    rw [List.foldl_cons] at h
    rcases ih _ h with h | h
    · split at h
      · exact Or.inl h
      · rcases List.mem_append.1 h with h | h
        · exact Or.inl h
        · exact Or.inr (by simpa using Or.inl (List.mem_singleton.1 h))
    · exact Or.inr (by simp [h])

theorem union_atKey (S G : GSet) (hS : Stored S) (hG : Stored G) (k : Str) :
    atKey (union S G) k = if atKey S k = [] then (atKey G k).take 1 else atKey S k := by
  unfold union
  induction G generalizing S with
  | nil =>
    rw [List.foldl_nil]
    split
    · rename_i h; rw [h]; rfl
    · rfl
  | cons g G ih =>
    have hG' : Stored G := fun e he => hG e (by simp [he])
    rw [List.foldl_cons]
    by_cases hg : g.2.key = goodKey k
    · have hg1 : g.1 = goodKey k := by rw [hG g (by simp) ((key_good _ _).1 hg).1, hg]
      have hc : atKey (g :: G) k = g :: atKey G k := by unfold atKey; rw [List.filter_cons_of_pos (by simpa using hg)]
      by_cases hn : atKey S k = []
      · have : sameIn S g = false := by
          apply Bool.eq_false_iff.2
          intro h
          exact (sameIn_good S hS g k hg1 hg).1 h hn
        rw [this, if_neg (by simp), if_pos hn, hc, ih]
        · have : atKey (S ++ [g]) k = [g] := by
            unfold atKey at hn ⊢
            rw [List.filter_append, hn, List.filter_cons_of_pos (by simpa using hg)]
            rfl
          rw [this, if_neg (by simp)]
          simp
        · intro e he hb
          rcases List.mem_append.1 he with he | he
          · exact hS e he hb
          · rw [List.mem_singleton.1 he] at hb ⊢
            exact hG g (by simp) hb
        · exact hG'
      · rw [(sameIn_good S hS g k hg1 hg).2 hn, if_pos rfl, ih S hS hG', if_neg hn, if_neg hn]
    · have hc : atKey (g :: G) k = atKey G k := by unfold atKey; rw [List.filter_cons_of_neg (by simpa using hg)]
      rw [hc]
      split
      · exact ih S hS hG'
      · have hs : atKey (S ++ [g]) k = atKey S k := by
          unfold atKey
          rw [List.filter_append, List.filter_cons_of_neg (by simpa using hg)]
          simp
        rw [ih, hs]
        · intro e he hb
          rcases List.mem_append.1 he with he | he
          · exact hS e he hb
          · rw [List.mem_singleton.1 he] at hb ⊢
            exact hG g (by simp) hb
        · exact hG'

/-- The last entry with a key decides. -/
theorem get_update_filter (l : List (Str × Grant)) (d : Dict Str Grant) (x : Str) :
    Dict.get? (Dict.update d l) x = (((l.filter (fun p => p.1 = x)).getLast?).map Prod.snd).or (Dict.get? d x) := by
  induction l generalizing d with
  | nil => simp
  | cons p l ih =>
    rw [Dict.update_cons, ih, Dict.get?_set]
    by_cases h : p.1 = x
    · rw [List.filter_cons_of_pos (by simpa using h), List.getLast?_cons, if_pos h]
      cases (l.filter (fun p => p.1 = x)).getLast? <;> simp
    · rw [List.filter_cons_of_neg (by simpa using h), if_neg h]

theorem set_mem (d : Dict Str Grant) (a : Str) (g : Grant) (p : Str × Grant) (h : p ∈ Dict.set d a g) : p ∈ d ∨ p = (a, g) := by
  induction d with
  | nil => exact Or.inr (List.mem_singleton.1 h)
  | cons x d ih =>
    obtain ⟨a1, a2⟩ := x
    unfold Dict.set at h
    split at h
    · rename_i hx
      rcases List.mem_cons.1 h with h | h
      · exact Or.inr (by rw [h, hx])
      · exact Or.inl (by simp [h])
    · rcases List.mem_cons.1 h with h | h
      · exact Or.inl (by simp [h])
      · rcases ih h with h | h
        · exact Or.inl (by simp [h])
        · exact Or.inr h

theorem overlap_mem (S G : GSet) (p : Str × Grant) (h : p ∈ overlapOf S G) : p.1 = p.2.id ∧ isIn S p.2 = true ∧ ∃ e ∈ G, e.2 = p.2 := by
  unfold overlapOf at h
  suffices hs : ∀ (l : List (Str × Grant)) (d : Dict Str Grant), p ∈ Dict.update d l → p ∈ d ∨ p ∈ l by
    rcases hs _ _ h with h | h
    · cases h
    · obtain ⟨e, he, rfl⟩ := List.mem_map.1 h
      obtain ⟨h1, h2⟩ := List.mem_filter.1 he
      exact ⟨rfl, h2, e, h1, rfl⟩
  intro l
  induction l with
  | nil => exact fun d h => Or.inl h
  | cons q l ih =>
    intro d h
    rw [Dict.update_cons] at h
    rcases ih _ h with h | h
    · rcases set_mem _ _ _ _ h with h | h
      · exact Or.inl h
      · exact Or.inr (by rw [h]; simp)
    · exact Or.inr (by simp [h])

theorem removeAll_mem (vs : List Grant) (G G' : GSet) (h : vs.foldlM removeOne G = some G') (e : Sum Str (List Str) × Grant) (he : e ∈ G') : e ∈ G := by
  induction vs generalizing G with
  | nil => cases h; exact he
  | cons v vs ih =>
    rw [List.foldlM_cons] at h
    unfold removeOne at h
    by_cases hv : isIn G v = true
    · rw [if_pos hv] at h
      exact List.mem_of_mem_eraseP (ih _ h)
    · rw [if_neg hv] at h
      cases h

theorem removeAll_atKey (vs : List Grant) (G G' : GSet) (h : vs.foldlM removeOne G = some G') (k : Str) (hv : ∀ v ∈ vs, v.key ≠ goodKey k) :
    atKey G' k = atKey G k := by
  induction vs generalizing G with
  | nil => cases h; rfl
  | cons v vs ih =>
    rw [List.foldlM_cons] at h
    unfold removeOne at h
    by_cases hi : isIn G v = true
    · rw [if_pos hi] at h
      rw [ih _ h (fun v' hv' => hv v' (by simp [hv']))]
      have hk := hv v (by simp)
      clear h hi ih
      unfold atKey
      induction G with
      | nil => rfl
      | cons e G ih =>
        rw [List.eraseP_cons]
        by_cases he : (decide (e.1 = v.key ∧ e.2.key = v.key)) = true
        · rw [he]
          have : ¬ e.2.key = goodKey k := by rw [(of_decide_eq_true he).2]; exact hk
          rw [List.filter_cons_of_neg (by simpa using this)]
          rfl
        · rw [Bool.not_eq_true] at he
          rw [he]
          simp only [cond_false]
          by_cases hek : e.2.key = goodKey k
          · rw [List.filter_cons_of_pos (by simpa using hek), List.filter_cons_of_pos (by simpa using hek), ih]
          · rw [List.filter_cons_of_neg (by simpa using hek), List.filter_cons_of_neg (by simpa using hek), ih]
    · rw [if_neg hi] at h
      cases h

theorem upd_bad (o : Dict Str Grant) (e : Sum Str (List Str) × Grant) : (updateFrom o e).2.bad = e.2.bad := by unfold updateFrom; split <;> rfl
theorem upd_fst (o : Dict Str Grant) (e : Sum Str (List Str) × Grant) : (updateFrom o e).1 = e.1 := by unfold updateFrom; split <;> rfl
theorem upd_id (o : Dict Str Grant) (e : Sum Str (List Str) × Grant) : (updateFrom o e).2.id = e.2.id := by unfold updateFrom; split <;> rfl
theorem upd_good (o : Dict Str Grant) (e : Sum Str (List Str) × Grant) (k : Str) : (updateFrom o e).2.key = goodKey k ↔ e.2.key = goodKey k := by
  rw [key_good, key_good, upd_bad, upd_id]
theorem upd_key (o : Dict Str Grant) (e : Sum Str (List Str) × Grant) (h : e.2.bad = false) : (updateFrom o e).2.key = e.2.key := by
  unfold Grant.key
  rw [upd_bad, upd_id, h]
  rfl
theorem upd_wf (o : Dict Str Grant) (e : Sum Str (List Str) × Grant) (h : Dict.WF e.2.fields) : Dict.WF (updateFrom o e).2.fields := by
  unfold updateFrom
  split
  · exact fold_WF _ _ h
  · exact h

theorem map_atKey (o : Dict Str Grant) (S : GSet) (k : Str) : atKey (S.map (updateFrom o)) k = (atKey S k).map (updateFrom o) := by
  unfold atKey
  rw [List.filter_map]
  congr 1
  apply List.filter_congr
  intro e _
  simp [upd_good]

/-- The bad members of a set are not known by the key of any of the rows. -/
def Apart (G : GSet) (rows : List (Str × Row)) : Prop := ∀ e ∈ G, e.2.bad = true → ∀ k, rowsOf k rows ≠ [] → k ≠ [] → e.2.id ≠ "NSERC:".toList ++ k

theorem merge_inv (S G T : GSet) (rows rows' : List (Str × Row)) (hS : Inv S rows) (hG : Inv G rows') (hb : Apart G rows) (hT : mergeFile S G = some T) :
    Inv T (rows ++ rows') := by
  have stS : Stored S := hS.stored
  have stG : Stored G := hG.stored
  have hIn : ∀ e ∈ G, ∀ k, e.2.key = goodKey k → (isIn S e.2 = true ↔ atKey S k ≠ []) := fun e _ k hk => isIn_good S rows hS e.2 k hk
  -- what an entry of the collection with a key is updated by
  have hget : ∀ k, k ≠ [] → rowsOf k rows ≠ [] →
      (rowsOf k rows' = [] → Dict.get? (overlapOf S G) ("NSERC:".toList ++ k) = none) ∧
      (∀ e2, atKey G k = [e2] → Dict.get? (overlapOf S G) ("NSERC:".toList ++ k) = some e2.2) := by
    intro k hk hr
    have hf : (((G.filter (fun e => isIn S e.2)).map (fun e => (e.2.id, e.2))).filter (fun p => p.1 = "NSERC:".toList ++ k)) =
        (atKey G k).map (fun e => (e.2.id, e.2)) := by
      rw [List.filter_map, List.filter_filter]
      congr 1
      unfold atKey
      apply List.filter_congr
      intro e he
      simp only [Function.comp_apply]
      by_cases hek : e.2.key = goodKey k
      · have hi := ((key_good _ _).1 hek).2
        obtain ⟨x, hx, -⟩ := hS.one k hk hr
        have : isIn S e.2 = true := (hIn e he k hek).2 (by unfold atKey; rw [hx]; simp)
        simp [hek, hi, this]
      · have : ¬ e.2.id = "NSERC:".toList ++ k := by
          intro hi
          cases hbad : e.2.bad with
          | true => exact hb e he hbad k hr hk hi
          | false => exact hek ((key_good _ _).2 ⟨hbad, hi⟩)
        rw [decide_eq_false this, decide_eq_false hek]; rfl
    have hg : Dict.get? (overlapOf S G) ("NSERC:".toList ++ k) = (((atKey G k).map (fun e => (e.2.id, e.2))).getLast?).map Prod.snd := by
      unfold overlapOf
      rw [get_update_filter, hf]
      simp
    constructor
    · intro hn
      have : atKey G k = [] := hG.none k hk hn
      rw [hg, this]
      rfl
    · intro e2 he2
      rw [hg, he2]
      rfl
  have key : ∃ o : Dict Str Grant, (o = overlapOf S G ∨ (o = [] ∧ ∀ k, atKey S k ≠ [] → atKey G k = [])) ∧
      (∀ e ∈ T, (∃ e0 ∈ S, e = updateFrom o e0) ∨ e ∈ G) ∧
      ∀ k, atKey T k = if atKey S k = [] then (atKey G k).take 1 else (atKey S k).map (updateFrom o) := by
    unfold mergeFile at hT
    by_cases ha : G.any (sameIn S) = true
    · rw [if_pos ha] at hT
      cases hr : ((overlapOf S G).map Prod.snd).foldlM removeOne G with
      | none => rw [hr] at hT; cases hT
      | some G' =>
        rw [hr] at hT
        cases hT
        refine ⟨overlapOf S G, Or.inl rfl, ?_, ?_⟩
        · intro e he
          rcases union_mem _ _ _ he with he | he
          · obtain ⟨e0, h0, rfl⟩ := List.mem_map.1 he
            exact Or.inl ⟨e0, h0, rfl⟩
          · exact Or.inr (removeAll_mem _ _ _ hr e he)
        · intro k
          rw [union_atKey, map_atKey]
          · by_cases hn : atKey S k = []
            · rw [if_pos (by rw [hn]; rfl), if_pos hn]
              congr 1
              apply removeAll_atKey _ _ _ hr
              intro v hv hvk
              obtain ⟨p, hp, rfl⟩ := List.mem_map.1 hv
              obtain ⟨-, h2, e, he, h3⟩ := overlap_mem S G p hp
              rw [← h3] at h2 hvk
              exact (hIn e he k hvk).1 h2 hn
            · rw [if_neg (by simpa using hn), if_neg hn]
          · intro e he hbad
            obtain ⟨e0, h0, rfl⟩ := List.mem_map.1 he
            rw [upd_bad] at hbad
            rw [upd_fst, upd_key _ _ hbad]
            exact stS e0 h0 hbad
          · intro e he hbad
            exact stG e (removeAll_mem _ _ _ hr e he) hbad
    · rw [if_neg ha] at hT
      cases hT
      have hid : ∀ e : Sum Str (List Str) × Grant, updateFrom [] e = e := fun e => rfl
      refine ⟨[], Or.inr ⟨rfl, ?_⟩, ?_, ?_⟩
      · intro k hn
        cases hgk : atKey G k with
        | nil => rfl
        | cons e l =>
          exfalso
          have he : e ∈ atKey G k := by rw [hgk]; simp
          obtain ⟨heG, hek⟩ := (mem_atKey _ _ _).1 he
          apply ha
          rw [List.any_eq_true]
          exact ⟨e, heG, (sameIn_good S stS e k (by rw [stG e heG ((key_good _ _).1 hek).1, hek]) hek).2 hn⟩
      · intro e he
        rcases union_mem _ _ _ he with he | he
        · exact Or.inl ⟨e, he, rfl⟩
        · exact Or.inr he
      · intro k
        rw [union_atKey S G stS stG]
        have : (atKey S k).map (updateFrom []) = atKey S k := by
          conv_rhs => rw [← List.map_id (atKey S k)]
          exact List.map_congr_left (fun e _ => hid e)
        rw [this]
  obtain ⟨o, ho, hmem, hat⟩ := key
  refine ⟨?_, ?_, ?_, ?_, ?_, ?_⟩
  · intro e he hbad
    rcases hmem e he with ⟨e0, h0, rfl⟩ | h
    · rw [upd_bad] at hbad
      rw [upd_fst, upd_key _ _ hbad]
      exact stS e0 h0 hbad
    · exact stG e h hbad
  · intro e he hbad
    rcases hmem e he with ⟨e0, h0, rfl⟩ | h
    · rw [upd_bad] at hbad
      rw [upd_fst]
      exact hS.storedBad e0 h0 hbad
    · exact hG.storedBad e h hbad
  · intro e he
    rcases hmem e he with ⟨e0, h0, rfl⟩ | h
    · exact upd_wf _ _ (hS.wf e0 h0)
    · exact hG.wf e h
  · intro e he hbad
    rcases hmem e he with ⟨e0, h0, rfl⟩ | h
    · rw [upd_bad] at hbad
      rw [upd_id]
      exact hS.ids e0 h0 hbad
    · exact hG.ids e h hbad
  · intro k hk hn
    rw [rowsOf_append, List.append_eq_nil_iff] at hn
    show atKey T k = []
    rw [hat, if_pos (show atKey S k = [] from hS.none k hk hn.1), show atKey G k = [] from hG.none k hk hn.2]
    rfl
  · intro k hk hn
    rw [rowsOf_append] at hn ⊢
    show ∃ e, atKey T k = [e] ∧ _
    rw [hat]
    by_cases h1 : rowsOf k rows = []
    · rw [if_pos (show atKey S k = [] from hS.none k hk h1), h1]
      rw [h1, List.nil_append] at hn
      obtain ⟨e, he, hv⟩ := hG.one k hk hn
      have he : atKey G k = [e] := he
      exact ⟨e, by rw [he]; rfl, hv⟩
    · obtain ⟨e1, he1, hv1⟩ := hS.one k hk h1
      have he1 : atKey S k = [e1] := he1
      rw [he1, if_neg (by simp)]
      refine ⟨updateFrom o e1, rfl, ?_⟩
      have hm : e1 ∈ atKey S k := by rw [he1]; simp
      have hid1 := ((key_good _ _).1 ((mem_atKey _ _ _).1 hm).2).2
      intro f
      by_cases h2 : rowsOf k rows' = []
      · have hno : Dict.get? o e1.2.id = none := by
          rcases ho with rfl | ⟨rfl, -⟩
          · rw [hid1]; exact (hget k hk h1).1 h2
          · rfl
        rw [h2, List.append_nil, ← hv1]
        unfold updateFrom
        rw [hno]
      · obtain ⟨e2, he2, hv2⟩ := hG.one k hk h2
        have he2 : atKey G k = [e2] := he2
        have hso : Dict.get? o e1.2.id = some e2.2 := by
          rcases ho with rfl | ⟨rfl, h⟩
          · rw [hid1]; exact (hget k hk h1).2 e2 he2
          · have := h k (by rw [he1]; simp)
            rw [he2] at this
            cases this
        have he2G : e2 ∈ G := ((mem_atKey _ _ _).1 (by rw [he2]; simp : e2 ∈ atKey G k)).1
        rw [merged_append _ _ _ h1, ← hv1, ← hv2]
        unfold updateFrom
        rw [hso]
        exact fold_get _ _ (hG.wf e2 he2G) f

/-- The bad grants of a file are known by the hash of a line without a key. -/
theorem parse_bad (hash : Str → Str) (rows : List (Str × Row)) (e : Sum Str (List Str) × Grant) (he : e ∈ parseFile hash rows) (hb : e.2.bad = true) :
    ∃ r ∈ rows, cle r.2 = [] ∧ e.2.id = "NSERC:".toList ++ hash r.1 := by
  unfold parseFile at he
  suffices h : ∀ (rest : List (Str × Row)) (S : GSet), (∀ r ∈ rest, r ∈ rows) → (∀ e ∈ S, e.2.bad = true → ∃ r ∈ rows, cle r.2 = [] ∧ e.2.id = "NSERC:".toList ++ hash r.1) →
      ∀ e ∈ rest.foldl (addRow hash) S, e.2.bad = true → ∃ r ∈ rows, cle r.2 = [] ∧ e.2.id = "NSERC:".toList ++ hash r.1 from
    h rows [] (fun r h => h) (by intro e he; cases he) e he hb
  intro rest
  induction rest with
  | nil => exact fun S _ h => h
  | cons r rest ih =>
    intro S hr hS
    refine ih _ (fun x hx => hr x (by simp [hx])) ?_
    intro e he hb
    unfold addRow at he
    simp only at he
    split at he
    · rcases updateFirst_mem _ _ _ he with h' | ⟨e0, h0, -, rfl⟩
      · exact hS e h' hb
      · exact hS e0 h0 hb
    · rcases List.mem_append.1 he with h' | h'
      · exact hS e h' hb
      · rw [List.mem_singleton.1 h'] at hb ⊢
        refine ⟨r, hr r (by simp), ?_⟩
        revert hb
        show (mkGrant hash r.1 r.2).bad = true → cle r.2 = [] ∧ (mkGrant hash r.1 r.2).id = _
        unfold mkGrant
        split
        · rename_i hc; exact fun _ => ⟨hc, rfl⟩
        · intro h; cases h

/-- No row has the hash of a line without a key as its key. -/
def NoClash (hash : Str → Str) (rows : List (Str × Row)) : Prop := ∀ r ∈ rows, cle r.2 = [] → ∀ r' ∈ rows, cle r'.2 ≠ hash r.1

theorem dir_inv (hash : Str → Str) (files : List (List (Str × Row))) (hr : ∀ rows ∈ files, ∀ r ∈ rows, Dict.WF r.2) (hc : NoClash hash files.flatten)
    (T : GSet) (hT : loadDir hash files = some T) : Inv T files.flatten := by
  unfold loadDir at hT
  suffices h : ∀ S done, (∀ r ∈ done, r ∈ files.flatten ∨ True) → Inv S done → NoClash hash (done ++ files.flatten) → files.foldlM (addFile hash) S = some T →
      Inv T (done ++ files.flatten) by
    simpa using h [] [] (by simp) inv_nil (by simpa using hc) hT
  clear hT hc
  induction files with
  | nil => intro S done _ h _ hT; cases hT; simpa using h
  | cons rows files ih =>
    intro S done _ h hc hT
    rw [List.foldlM_cons] at hT
    cases hm : addFile hash S rows with
    | none => rw [hm] at hT; cases hT
    | some S' =>
      rw [hm] at hT
      have hi : Inv S' (done ++ rows) := by
        refine merge_inv S _ S' done rows h (parse_inv hash rows (hr rows (by simp))) ?_ hm
        intro e he hb k hk hk0 hid
        obtain ⟨r, hr', hcl, hid'⟩ := parse_bad hash rows e he hb
        obtain ⟨r', hr''⟩ := List.exists_mem_of_ne_nil _ hk
        unfold rowsOf at hr''
        obtain ⟨h1, h2⟩ := List.mem_filter.1 hr''
        obtain ⟨q, hq, rfl⟩ := List.mem_map.1 h1
        have h2 : cle q.2 = k := by simpa using h2
        refine hc r (by simp [hr']) hcl q (by simp [hq]) ?_
        rw [h2]
        exact (List.append_cancel_left (hid'.symm.trans hid)).symm
      have := ih (fun x hx => hr x (by simp [hx])) S' (done ++ rows) (by simp) hi (by simpa using hc) hT
      simpa using this

/-! ## The property -/

/-- The grants of a set whose id is that of a key. -/
def withKey (S : GSet) (k : Str) : List Grant := (S.map Prod.snd).filter (fun g => !g.bad && g.id = "NSERC:".toList ++ k)

theorem withKey_eq (S : GSet) (k : Str) : withKey S k = (S.filter (fun e => e.2.key = goodKey k)).map Prod.snd := by
  unfold withKey
  rw [List.filter_map]
  congr 1
  apply List.filter_congr
  intro e _
  have := key_good e.2 k
  by_cases h : e.2.key = goodKey k
  · have h2 := this.1 h
    simp [h, h2.1, h2.2]
  · have h2 := mt this.2 h
    simp only [Function.comp_apply, h, decide_false]
    cases hb : e.2.bad with
    | true => rfl
    | false => simp only [Bool.not_false, Bool.true_and, decide_eq_false_iff_not]; exact fun hi => h2 ⟨hb, hi⟩

/-- **C48, a file.** From the rows of one file, with or without keys: each key that occurs gives exactly one grant, whose columns are the merged
columns of its rows; a key that does not occur gives none. -/
theorem C48_file (hash : Str → Str) (rows : List (Str × Row)) (hr : ∀ r ∈ rows, Dict.WF r.2) (k : Str) (hk : k ≠ []) :
    (rowsOf k rows = [] → withKey (parseFile hash rows) k = []) ∧
    (rowsOf k rows ≠ [] → ∃ g, withKey (parseFile hash rows) k = [g] ∧ ∀ f, Dict.get? g.fields f = merged f (rowsOf k rows)) := by
  have h := parse_inv hash rows hr
  refine ⟨fun hn => ?_, fun hn => ?_⟩
  · rw [withKey_eq, h.none k hk hn]; rfl
  · obtain ⟨e, he, hv⟩ := h.one k hk hn
    exact ⟨e.2, by rw [withKey_eq, he]; rfl, hv⟩

/-- **C48, a directory.** The same over several files, however the rows are spread over the files: what counts is the order in which they are read. Rows
without a key do not disturb the others, as long as the hash of their line is not the key of another row and the directory can be read. -/
theorem C48_directory_partial (hash : Str → Str) (files : List (List (Str × Row))) (hr : ∀ rows ∈ files, ∀ r ∈ rows, Dict.WF r.2)
    (hc : NoClash hash files.flatten) (T : GSet) (hT : loadDir hash files = some T) (k : Str) (hk0 : k ≠ []) :
    (rowsOf k files.flatten = [] → withKey T k = []) ∧
    (rowsOf k files.flatten ≠ [] → ∃ g, withKey T k = [g] ∧ ∀ f, Dict.get? g.fields f = merged f (rowsOf k files.flatten)) := by
  have h := dir_inv hash files hr hc T hT
  refine ⟨fun hn => ?_, fun hn => ?_⟩
  · rw [withKey_eq, h.none k hk0 hn]; rfl
  · obtain ⟨e, he, hv⟩ := h.one k hk0 hn
    exact ⟨e.2, by rw [withKey_eq, he]; rfl, hv⟩

/-! ## The number of grants -/

def goods (S : GSet) : List Grant := (S.map Prod.snd).filter (fun g => !g.bad)

theorem goods_count (S : GSet) (k : Str) : ((goods S).map (fun g => g.id)).count ("NSERC:".toList ++ k) = (atKey S k).length := by
  unfold goods
  induction S with
  | nil => rfl
  | cons x S ih =>
    have hx := key_good x.2 k
    rw [List.map_cons]
    cases hb : x.2.bad with
    | true =>
      rw [List.filter_cons_of_neg (by simp [hb]), ih]
      unfold atKey
      rw [List.filter_cons_of_neg]
      intro h
      have := (hx.1 (of_decide_eq_true h)).1
      rw [hb] at this
      cases this
    | false =>
      rw [List.filter_cons_of_pos (by simp [hb]), List.map_cons, List.count_cons, ih]
      unfold atKey
      by_cases hk : x.2.key = goodKey k
      · rw [List.filter_cons_of_pos (by simpa using hk), (hx.1 hk).2]; simp
      · rw [List.filter_cons_of_neg (by simpa using hk)]
        have : ¬ x.2.id = "NSERC:".toList ++ k := fun hi => hk (hx.2 ⟨hb, hi⟩)
        rw [if_neg (by simpa using this)]; rfl

theorem goods_ids (S : GSet) (rows : List (Str × Row)) (h : Inv S rows) : ((goods S).map (fun g => g.id)).Perm
    ((((rows.map (fun r => cle r.2)).filter (fun k => k ≠ [])).dedup).map (fun k => "NSERC:".toList ++ k)) := by
  rw [List.perm_iff_count]
  intro x
  have inj : Function.Injective (fun k : Str => "NSERC:".toList ++ k) := fun a b hab => List.append_cancel_left hab
  have hnd : ((((rows.map (fun r => cle r.2)).filter (fun k => k ≠ [])).dedup).map (fun k => "NSERC:".toList ++ k)).Nodup :=
    List.Nodup.map inj (List.nodup_dedup _)
  by_cases hx : ∃ k, k ≠ [] ∧ x = "NSERC:".toList ++ k
  · obtain ⟨k, hk, rfl⟩ := hx
    rw [goods_count]
    by_cases hrow : rowsOf k rows = []
    · rw [show atKey S k = [] from h.none k hk hrow]
      symm
      apply List.count_eq_zero_of_not_mem
      intro hm
      obtain ⟨k', hk', e⟩ := List.mem_map.1 hm
      have : k' = k := inj e
      subst this
      obtain ⟨r, hr, hrc⟩ := List.mem_map.1 (List.mem_filter.1 (List.mem_dedup.1 hk')).1
      have := List.filter_eq_nil_iff.1 hrow r.2 (List.mem_map_of_mem hr)
      simp [hrc] at this
    · obtain ⟨e, he, -⟩ := h.one k hk hrow
      rw [show atKey S k = [e] from he]
      symm
      apply List.count_eq_one_of_mem hnd
      apply List.mem_map_of_mem
      obtain ⟨r', hr''⟩ := List.exists_mem_of_ne_nil _ hrow
      unfold rowsOf at hr''
      obtain ⟨h1, h2⟩ := List.mem_filter.1 hr''
      obtain ⟨q, hq, rfl⟩ := List.mem_map.1 h1
      have h2 : cle q.2 = k := by simpa using h2
      exact List.mem_dedup.2 (List.mem_filter.2 ⟨List.mem_map.2 ⟨q, hq, h2⟩, by simpa using hk⟩)
  · rw [List.count_eq_zero_of_not_mem, List.count_eq_zero_of_not_mem]
    · intro hm
      obtain ⟨k', hk', e⟩ := List.mem_map.1 hm
      exact hx ⟨k', by simpa using (List.mem_filter.1 (List.mem_dedup.1 hk')).2, e.symm⟩
    · intro hm
      obtain ⟨g, hg, e⟩ := List.mem_map.1 hm
      obtain ⟨h1, h2⟩ := List.mem_filter.1 hg
      obtain ⟨p, hp, rfl⟩ := List.mem_map.1 h1
      obtain ⟨k, hk, hid⟩ := h.ids p hp (by simpa using h2)
      exact hx ⟨k, hk, by rw [← e, hid]⟩

/-- **C48, the number of grants.** A directory gives as many grants with a key as there are distinct keys. -/
theorem C48_count_partial (hash : Str → Str) (files : List (List (Str × Row))) (hr : ∀ rows ∈ files, ∀ r ∈ rows, Dict.WF r.2)
    (hc : NoClash hash files.flatten) (T : GSet) (hT : loadDir hash files = some T) :
    ((T.map Prod.snd).filter (fun g => !g.bad)).length = ((files.flatten.map (fun r => cle r.2)).filter (fun k => k ≠ [])).dedup.length := by
  have := (goods_ids T _ (dir_inv hash files hr hc T hT)).length_eq
  rw [List.length_map, List.length_map] at this
  exact this

/-! ## When a directory can be read -/

/-- The values of the rows without a key. -/
def keyless (rows : List (Str × Row)) : List (List Str) := (rows.filter (fun r => cle r.2 = [])).map (fun r => r.2.map Prod.snd)

/-- What holds of a file none of whose grants changed its key. -/
structure Fresh (G : GSet) (rows : List (Str × Row)) : Prop where
  stored : ∀ e ∈ G, e.1 = e.2.key
  nodup : (G.map (fun e => e.2.key)).Nodup
  bad : ∀ e ∈ G, ∀ v, e.2.key = .inr v → v ∈ keyless rows

theorem updateFirst_keys (g : Grant) (hg : g.bad = false) (S : GSet) : (updateFirst g S).map (fun e => e.2.key) = S.map (fun e => e.2.key) := by
  induction S with
  | nil => rfl
  | cons e S ih =>
    unfold updateFirst
    split
    · rename_i h
      have : e.2.bad = false := by
        unfold Grant.key at h
        rw [hg] at h
        cases hb : e.2.bad with
        | false => rfl
        | true => rw [hb] at h; cases h
      simp only [List.map_cons]
      rw [key_update _ _ this]
    · simp only [List.map_cons]
      rw [ih]

theorem updateFirst_stored (g : Grant) (hg : g.bad = false) (S : GSet) (h : ∀ e ∈ S, e.1 = e.2.key) : ∀ e ∈ updateFirst g S, e.1 = e.2.key := by
  have h1 : (updateFirst g S).map Prod.fst = S.map Prod.fst := by
    clear h
    induction S with
    | nil => rfl
    | cons e S ih => unfold updateFirst; split <;> simp [ih]
  have h2 := updateFirst_keys g hg S
  have h3 : S.map Prod.fst = S.map (fun e => e.2.key) := List.map_congr_left h
  have h4 : (updateFirst g S).map Prod.fst = (updateFirst g S).map (fun e => e.2.key) := by rw [h1, h2, h3]
  exact fun e he => List.map_inj_left.1 h4 e he

theorem isIn_key (S : GSet) (h : ∀ e ∈ S, e.1 = e.2.key) (g : Grant) : isIn S g = true ↔ g.key ∈ S.map (fun e => e.2.key) := by
  unfold isIn
  rw [List.any_eq_true, List.mem_map]
  constructor
  · rintro ⟨e, he, hk⟩
    exact ⟨e, he, (of_decide_eq_true hk).2⟩
  · rintro ⟨e, he, hk⟩
    exact ⟨e, he, decide_eq_true ⟨by rw [h e he, hk], hk⟩⟩

theorem parse_fresh (hash : Str → Str) (rows : List (Str × Row)) (hd : (keyless rows).Nodup) : Fresh (parseFile hash rows) rows := by
  unfold parseFile
  induction rows using List.reverseRecOn with
  | nil => exact ⟨by simp, by simp, by simp⟩
  | append_singleton rows r ih =>
    have hk : keyless (rows ++ [r]) = keyless rows ++ (if cle r.2 = [] then [r.2.map Prod.snd] else []) := by
      unfold keyless
      rw [List.filter_append, List.map_append]
      congr 1
      by_cases h : cle r.2 = [] <;> simp [h]
    rw [hk] at hd
    have ih := ih (List.nodup_append.1 hd).1
    rw [List.foldl_append, List.foldl_cons, List.foldl_nil]
    have hsub : ∀ v, v ∈ keyless rows → v ∈ keyless (rows ++ [r]) := fun v hv => by rw [hk]; simp [hv]
    generalize rows.foldl (addRow hash) [] = S at ih
    unfold addRow
    simp only
    have happ : isIn S (mkGrant hash r.1 r.2) = false → (∀ v, (mkGrant hash r.1 r.2).key = .inr v → v ∈ keyless (rows ++ [r])) →
        Fresh (S ++ [((mkGrant hash r.1 r.2).key, mkGrant hash r.1 r.2)]) (rows ++ [r]) := by
      intro hn hb
      have hn : (mkGrant hash r.1 r.2).key ∉ S.map (fun e => e.2.key) := fun h => by
        rw [(isIn_key S ih.stored _).2 h] at hn
        cases hn
      refine ⟨?_, ?_, ?_⟩
      · intro e he
        rcases List.mem_append.1 he with he | he
        · exact ih.stored e he
        · rw [List.mem_singleton.1 he]
      · rw [List.map_append, List.nodup_append]
        refine ⟨ih.nodup, by simp, ?_⟩
        intro a ha b hb' hab
        rw [List.map_singleton, List.mem_singleton] at hb'
        rw [hab, hb'] at ha
        exact hn ha
      · intro e he v hv
        rcases List.mem_append.1 he with he | he
        · exact hsub v (ih.bad e he v hv)
        · rw [List.mem_singleton.1 he] at hv
          exact hb v hv
    by_cases hc : cle r.2 = []
    · have hkey : (mkGrant hash r.1 r.2).key = .inr (r.2.map Prod.snd) := by
        unfold mkGrant Grant.key
        rw [if_pos (show (Dict.get? r.2 "Cle".toList).getD [] = [] from hc)]
        rfl
      rw [if_pos hc] at hd hk
      have hn : isIn S (mkGrant hash r.1 r.2) = false := by
        apply Bool.eq_false_iff.2
        intro h
        obtain ⟨e, he, hek⟩ := List.mem_map.1 ((isIn_key S ih.stored _).1 h)
        rw [hkey] at hek
        exact (List.nodup_append.1 hd).2.2 _ (ih.bad e he _ hek) _ (by simp) rfl
      rw [hn, if_neg (by simp)]
      refine happ hn ?_
      intro v hv
      rw [hkey] at hv
      rw [hk, ← Sum.inr.inj hv]
      simp
    · have hb : (mkGrant hash r.1 r.2).bad = false := by
        unfold mkGrant
        rw [if_neg (show ¬ (Dict.get? r.2 "Cle".toList).getD [] = [] from hc)]
      have hkb : ∀ v, (mkGrant hash r.1 r.2).key ≠ .inr v := by
        intro v hv
        unfold Grant.key at hv
        rw [hb] at hv
        cases hv
      cases hi : isIn S (mkGrant hash r.1 r.2) with
      | false =>
        rw [if_neg (by simp)]
        exact happ hi (fun v hv => absurd hv (hkb v))
      | true =>
        rw [if_pos rfl]
        refine ⟨updateFirst_stored _ hb S ih.stored, by rw [updateFirst_keys _ hb]; exact ih.nodup, ?_⟩
        intro e he v hv
        have : (.inr v : Sum Str (List Str)) ∈ S.map (fun e => e.2.key) := by
          rw [← updateFirst_keys _ hb, ← hv]
          exact List.mem_map_of_mem (f := fun e : Sum Str (List Str) × Grant => e.2.key) he
        obtain ⟨e0, h0, h0k⟩ := List.mem_map.1 this
        exact hsub v (ih.bad e0 h0 v h0k)

theorem removeAll_some (vs : List Grant) (hvs : (vs.map Grant.key).Nodup) (G : GSet) (hG : ∀ v ∈ vs, isIn G v = true) :
    (vs.foldlM removeOne G).isSome = true := by
  induction vs generalizing G with
  | nil => rfl
  | cons v vs ih =>
    rw [List.foldlM_cons]
    unfold removeOne
    rw [if_pos (hG v (by simp))]
    rw [List.map_cons, List.nodup_cons] at hvs
    refine ih hvs.2 _ ?_
    intro w hw
    have hw' := hG w (by simp [hw])
    unfold isIn at hw' ⊢
    rw [List.any_eq_true] at hw' ⊢
    obtain ⟨e, he, hk⟩ := hw'
    have hk2 := of_decide_eq_true hk
    refine ⟨e, (List.mem_eraseP_of_neg ?_).2 he, hk⟩
    intro h
    have h := of_decide_eq_true h
    exact hvs.1 (by rw [← h.2, hk2.2]; exact List.mem_map_of_mem hw)

theorem merge_some (S G : GSet) (rows : List (Str × Row)) (hG : Fresh G rows) : (mergeFile S G).isSome = true := by
  unfold mergeFile
  split
  · have hv : ((((overlapOf S G).map Prod.snd).map Grant.key)).Nodup := by
      have hids : (((overlapOf S G).map Prod.snd).map Grant.id) = Dict.keys (overlapOf S G) := by
        unfold Dict.keys
        rw [List.map_map]
        apply List.map_congr_left
        intro p hp
        exact (overlap_mem S G p hp).1.symm
      have hwf : Dict.WF (overlapOf S G) := Dict.WF_update (show Dict.WF ([] : Dict Str Grant) from List.nodup_nil) _
      have hn : ((overlapOf S G).map Prod.snd).Nodup := List.Nodup.of_map Grant.id (by rw [hids]; exact hwf)
      refine List.Nodup.map_on ?_ hn
      intro a ha b hb hab
      obtain ⟨p, hp, rfl⟩ := List.mem_map.1 ha
      obtain ⟨q, hq, rfl⟩ := List.mem_map.1 hb
      obtain ⟨-, -, e, he, h1⟩ := overlap_mem S G p hp
      obtain ⟨-, -, e', he', h2⟩ := overlap_mem S G q hq
      rw [← h1, ← h2] at hab ⊢
      rw [List.inj_on_of_nodup_map hG.nodup he he' hab]
    have hi : ∀ v ∈ (overlapOf S G).map Prod.snd, isIn G v = true := by
      intro v hv
      obtain ⟨p, hp, rfl⟩ := List.mem_map.1 hv
      obtain ⟨-, -, e, he, h1⟩ := overlap_mem S G p hp
      rw [isIn_key G hG.stored, ← h1]
      exact List.mem_map_of_mem (f := fun e : Sum Str (List Str) × Grant => e.2.key) he
    have := removeAll_some _ hv G hi
    cases h : ((overlapOf S G).map Prod.snd).foldlM removeOne G with
    | none => rw [h] at this; cases this
    | some G' => rfl
  · rfl

/-- **C48, no failure.** A directory is read without an exception if no file has two rows without a key that agree in all values. In particular if every
row has a key. -/
theorem C48_readable (hash : Str → Str) (files : List (List (Str × Row))) (hd : ∀ rows ∈ files, (keyless rows).Nodup) :
    (loadDir hash files).isSome = true := by
  unfold loadDir
  suffices h : ∀ S, (files.foldlM (addFile hash) S).isSome = true from h []
  induction files with
  | nil => exact fun S => rfl
  | cons rows files ih =>
    intro S
    rw [List.foldlM_cons]
    have := merge_some S _ rows (parse_fresh hash rows (hd rows (by simp)))
    cases h : addFile hash S rows with
    | none => unfold addFile at h; rw [h] at this; cases this
    | some S' => exact ih (fun x hx => hd x (by simp [hx])) S'

/-- Two files with keyless rows and the hypotheses of the theorems. -/
def twoFiles : List (List (Str × Row)) :=
  [[("l1".toList, [("Cle".toList, "1".toList), ("N".toList, "a".toList)]), ("l2".toList, [("Cle".toList, "2".toList), ("N".toList, "b".toList)]), ("l5".toList, [("Cle".toList, []), ("N".toList, "x".toList)])],
   [("l3".toList, [("Cle".toList, "1".toList), ("N".toList, "c".toList)]), ("l4".toList, [("Cle".toList, "2".toList), ("N".toList, [])]), ("l6".toList, [("Cle".toList, []), ("N".toList, "x".toList)])]]

example : (∀ rows ∈ twoFiles, ∀ r ∈ rows, Dict.WF r.2) ∧ NoClash id twoFiles.flatten ∧ (∀ rows ∈ twoFiles, (keyless rows).Nodup) := by
  refine ⟨?_, ?_, ?_⟩
  · simp only [twoFiles, Dict.WF, Dict.keys]; decide +kernel
  · simp only [NoClash]; decide +kernel
  · decide +kernel

/-- The same grant in both files, once with an empty column; the keyless row of the second file is the one of the first. -/
example : (loadDir id twoFiles).map (fun S => S.map (fun e => (e.2.id, Dict.get? e.2.fields "N".toList))) =
    some [("NSERC:1".toList, some "a; c".toList), ("NSERC:2".toList, some "b".toList), ("NSERC:l5".toList, some "x".toList)] := by decide +kernel

/-- **C48, a failure.** A file has the same keyless row twice, and an earlier file has a keyless row with the values they are merged to; the files
share a grant. Then the directory cannot be read, although each of the files can. -/
theorem C48_unreadable :
    let x : Row := [("Cle".toList, []), ("N".toList, "x".toList)]
    let xx : Row := [("Cle".toList, []), ("N".toList, "x; x".toList)]
    let k : Row := [("Cle".toList, "1".toList), ("N".toList, [])]
    loadDir id [[("l0".toList, k), ("l1".toList, xx)], [("l2".toList, x), ("l3".toList, x), ("l4".toList, k)]] = none ∧
    (loadDir id [[("l0".toList, k), ("l1".toList, xx)]]).isSome = true ∧
    (loadDir id [[("l2".toList, x), ("l3".toList, x), ("l4".toList, k)]]).isSome = true := by
  decide +kernel

/-- **C48, clashes.** A key equal to the hash of a keyless line mixes the two grants up: the keyed grant gets the values of the keyless one. -/
theorem C48_clash :
    let x : Row := [("Cle".toList, []), ("N".toList, "x".toList)]
    (loadDir id [[("l1".toList, [("Cle".toList, "l2".toList), ("N".toList, "a".toList)]), ("l0".toList, x)], [("l2".toList, x)]]).map (fun S =>
      (withKey S "l2".toList).map (fun g => Dict.get? g.fields "N".toList)) = some [some "a; x".toList] := by decide +kernel

/-- The key column of a merged grant repeats the key: the id stays. -/
theorem C48_key_repeats : ∃ g, withKey (parseFile id [("l1".toList, [("Cle".toList, "1".toList)]), ("l2".toList, [("Cle".toList, "1".toList)])]) "1".toList = [g] ∧
    Dict.get? g.fields "Cle".toList = some "1; 1".toList ∧ g.id = "NSERC:1".toList := ⟨_, by rfl, by decide +kernel, by decide +kernel⟩

end Verif.Props.Nserc
