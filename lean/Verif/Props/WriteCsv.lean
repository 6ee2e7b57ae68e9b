import Verif.Spec.WriteCsv

/-! # C61: csv files of a collection -/
set_option autoImplicit false
set_option linter.unusedSimpArgs false
namespace Verif.Props.WriteCsv
open Verif.Py Verif.Model.WriteCsv Verif.Spec.WriteCsv

variable {ρ : Type}

/-! ## Cells -/

theorem join_eq (sep : Str) (l : List Str) : Str.join sep l = List.intercalate sep l := by
  induction l with
  | nil => rfl
  | cons a l ih =>
    cases l with
    | nil => simp [Str.join, List.intercalate, List.intersperse]
    | cons b l => rw [Str.join, ih]; simp [List.intercalate, List.intersperse]

theorem cell_eq (sep : Str) (x : Option Val) : cell sep x = valueText sep x := by
  rcases x with _ | x
  · rfl
  · cases x <;> simp [cell, valueText, join_eq]

theorem get?_foldl_set (f : Str → Str) (l : List Str) (d : Dict Str Str) (k : Str) :
    (l.foldl (fun (d : Dict Str Str) t => d.set t (f t)) d).get? k = if k ∈ l then some (f k) else d.get? k := by
  induction l generalizing d with
  | nil => simp
  | cons a l ih =>
    rw [List.foldl_cons, ih, Dict.get?_set]
    by_cases h1 : k ∈ l
    · simp [h1]
    · by_cases h2 : a = k
      · simp [h2]
      · have : k ≠ a := fun h => h2 h.symm
        simp [h1, h2, this]

theorem writerFields_eq (o : Opts) (fields : List Str) : writerFields o fields = fields ++ added o := by
  unfold writerFields added kAuthors kMale kFemale kUnknown
  cases o.numAuthors <;> cases o.genderCounts <;> simp

theorem rowOf_eq (v : View ρ) (o : Opts) (fields : List Str) (R : ρ) :
    rowOf v o fields R = (fields ++ added o).map (cellText v o R) := by
  unfold rowOf
  rw [writerFields_eq]
  apply List.map_congr_left
  intro k hk
  have hin : ∀ k, k ∈ fields → k ∈ loopFields o fields := by
    intro k h; unfold loopFields; rw [writerFields_eq]; split <;> simp [h]
  have h1 : kMale ≠ kAuthors := by decide
  have h2 : kFemale ≠ kAuthors := by decide
  have h3 : kUnknown ≠ kAuthors := by decide
  have h4 : kFemale ≠ kMale := by decide
  have h5 : kUnknown ≠ kMale := by decide
  have h6 : kUnknown ≠ kFemale := by decide
  unfold recDict cellText
  have ha : added o = (if o.numAuthors then [kAuthors] else []) ++ (if o.genderCounts then [kMale, kFemale, kUnknown] else []) := rfl
  rw [ha] at hk ⊢
  change _ = if k ∈ _ then (if k = kAuthors then _ else if k = kMale then _ else if k = kFemale then _ else _) else _
  rcases List.mem_append.1 hk with hk' | hk'
  · have hl := hin k hk'
    cases hn : o.numAuthors <;> cases hg : o.genderCounts <;> simp only [Bool.false_eq_true, if_true, if_false, Dict.get?_set,
      get?_foldl_set, hl, cell_eq, showNat, List.append_nil, List.nil_append, List.mem_cons, List.not_mem_nil, List.mem_append, or_false]
    · rfl
    · by_cases e1 : k = kMale
      · subst e1; simp [h1, h4, h5]
      · by_cases e2 : k = kFemale
        · subst e2; simp [h2, h4, h6]
        · by_cases e3 : k = kUnknown
          · subst e3; simp [h3, h5, h6]
          · have := Ne.symm e1; have := Ne.symm e2; have := Ne.symm e3
            simp [*]
    · by_cases e1 : k = kAuthors
      · subst e1; simp
      · have := Ne.symm e1
        simp [*]
    · by_cases e0 : k = kAuthors
      · subst e0; simp [h1, h2, h3]
      · by_cases e1 : k = kMale
        · subst e1; simp [h1, h4, h5]
        · by_cases e2 : k = kFemale
          · subst e2; simp [h2, h4, h6]
          · by_cases e3 : k = kUnknown
            · subst e3; simp [h3, h5, h6]
            · have := Ne.symm e0; have := Ne.symm e1; have := Ne.symm e2; have := Ne.symm e3
              simp [*]
  · rw [if_pos hk']
    cases hn : o.numAuthors <;> cases hg : o.genderCounts <;> simp only [hn, hg, Bool.false_eq_true, if_true, if_false, Dict.get?_set,
      showNat, List.append_nil, List.nil_append, List.mem_cons, List.not_mem_nil, List.mem_append, or_false] at hk' ⊢
    · rcases hk' with rfl | rfl | rfl <;> simp [h1, h2, h3, h4, h5, h6]
    · subst hk'; simp
    · rcases hk' with rfl | rfl | rfl | rfl <;> simp [h1, h2, h3, h4, h5, h6]

/-! ## Columns -/

/-- C61, columns without a selection: the first tags, then the other tags of the records in the order in which they come up, each once. -/
theorem allFields_eq (keys : ρ → List Str) (hk : ∀ R, (keys R).Nodup) (first : List Str) (recs : List ρ) :
    allFields keys first recs = first ++ ((recs.flatMap keys).filter (fun t => t ∉ first)).eraseDups := by
  unfold allFields
  suffices h : ∀ (acc : List Str), recs.foldl (fun acc R => acc ++ (keys R).filter (fun t => t ∉ acc)) acc =
      acc ++ ((recs.flatMap keys).filter (fun t => t ∉ acc)).eraseDups from h first
  induction recs with
  | nil => intro acc; simp
  | cons R recs ih =>
    intro acc
    rw [List.foldl_cons, ih, List.flatMap_cons, List.filter_append, List.eraseDups_append, List.append_assoc]
    congr 1
    have hnd : ((keys R).filter (fun t => t ∉ acc)).Nodup := (hk R).filter _
    have hself : ((keys R).filter (fun t => decide (t ∉ acc))).eraseDups = (keys R).filter (fun t => decide (t ∉ acc)) := by
      generalize (keys R).filter (fun t => decide (t ∉ acc)) = l at hnd
      induction l with
      | nil => rfl
      | cons a l ih' =>
        rw [List.nodup_cons] at hnd
        rw [List.eraseDups_cons, List.filter_eq_self.2, ih' hnd.2]
        intro b hb
        have : b ≠ a := fun h => hnd.1 (h ▸ hb)
        simp [this]
    rw [hself]
    congr 2
    unfold List.removeAll
    rw [List.filter_filter]
    apply List.filter_congr
    intro t _
    by_cases h1 : t ∈ acc <;> by_cases h2 : t ∈ keys R <;> simp [h1, h2]

theorem shortFields_eq (toTag : Str → Option Str) (o : Opts) (keys : ρ → List Str) (hk : ∀ R, (keys R).Nodup) (recs : List ρ) :
    shortFields toTag o keys recs = wanted toTag o keys recs := by
  unfold shortFields wanted translate
  rcases h : o.onlyTheseTags with _ | (_ | ⟨t, ts⟩)
  · exact allFields_eq keys hk _ recs
  · exact allFields_eq keys hk _ recs
  · rfl

/-- C61, columns: with a selection, the columns taken from the records are exactly the selected tags. -/
theorem C61_selected (toTag : Str → Option Str) (o : Opts) (keys : ρ → List Str) (recs : List ρ) (only : List Str) (hne : only ≠ [])
    (ho : o.onlyTheseTags = some only) (t : Str) :
    t ∈ wanted toTag o keys recs ↔ ∃ s ∈ only, t = (toTag s).getD s := by
  unfold wanted
  rw [ho]
  cases only with
  | nil => exact absurd rfl hne
  | cons a as =>
    have hm : (∃ s ∈ a :: as, t = (toTag s).getD s) ↔ t ∈ (a :: as).map (fun t => (toTag t).getD t) := by
      rw [List.mem_map]; exact ⟨fun ⟨s, h1, h2⟩ => ⟨s, h1, h2.symm⟩, fun ⟨s, h1, h2⟩ => ⟨s, h1, h2.symm⟩⟩
    rw [hm]
    simp only [List.mem_append, List.mem_filter, decide_eq_true_eq]
    generalize (a :: as).map (fun t => (toTag t).getD t) = m
    constructor
    · rintro (h | h)
      · exact h.2
      · exact h.1
    · intro h
      by_cases hf : t ∈ (o.firstTags.getD ["id".toList, "title".toList, "authorsFull".toList, "citations".toList, "keywords".toList,
          "DOI".toList]).map (fun t => (toTag t).getD t)
      · exact Or.inl ⟨hf, h⟩
      · exact Or.inr ⟨h, hf⟩

/-- C61, columns: without a selection every first tag and every tag of a record has a column, and there is no other. -/
theorem C61_unselected (toTag : Str → Option Str) (o : Opts) (keys : ρ → List Str) (recs : List ρ) (first : List Str)
    (hf : o.firstTags = some first) (ho : o.onlyTheseTags = none) (t : Str) :
    t ∈ wanted toTag o keys recs ↔ (∃ s ∈ first, t = (toTag s).getD s) ∨ ∃ R ∈ recs, t ∈ keys R := by
  unfold wanted
  rw [ho, hf]
  have hm : (∃ s ∈ first, t = (toTag s).getD s) ↔ t ∈ first.map (fun t => (toTag t).getD t) := by
    rw [List.mem_map]; exact ⟨fun ⟨s, h1, h2⟩ => ⟨s, h1, h2.symm⟩, fun ⟨s, h1, h2⟩ => ⟨s, h1, h2.symm⟩⟩
  rw [hm]
  simp only [Option.getD_some, List.mem_append, List.mem_eraseDups, List.mem_filter, List.mem_flatMap, decide_eq_true_eq]
  generalize first.map (fun t => (toTag t).getD t) = m
  constructor
  · rintro (h | h)
    · exact Or.inl h
    · exact Or.inr h.1
  · rintro (h | h)
    · exact Or.inl h
    · by_cases hf : t ∈ m
      · exact Or.inl hf
      · exact Or.inr ⟨h, hf⟩

/-! ## One file -/

theorem foldl_rows (d : CsvAll.Dialect) (f : ρ → List Str) (recs : List ρ) (t : Str) :
    recs.foldl (fun t R => t ++ CsvAll.row d (f R)) t = t ++ CsvAll.rows d (recs.map f) := by
  induction recs generalizing t with
  | nil => simp [CsvAll.rows]
  | cons R recs ih => rw [List.foldl_cons, ih]; simp [CsvAll.rows]

/-- C61, one file: when the columns are known under the names asked for, the file can be read back, and holds the columns and then, in the
order of the collection, one row for each record with the text of its value for each column. -/
theorem C61_file (toTag toFull : Str → Option Str) (v : View ρ) (hk : ∀ R, (v.keys R).Nodup) (o : Opts) (hd : o.dialect.Ok)
    (hs : o.splitByTag = none) (recs : List ρ) (names : List Str)
    (hn : if o.longNames then (wanted toTag o v.keys recs).mapM toFull = some names else names = wanted toTag o v.keys recs) :
    ∃ text, writeCSV toTag toFull v o recs = .ok (.single text) ∧
      CsvAll.read o.dialect text = (names ++ added o) :: recs.map (fun R => (names ++ added o).map (cellText v o R)) := by
  have hr : retrievedFields toTag toFull o v.keys recs = some names := by
    unfold retrievedFields
    rw [shortFields_eq toTag o v.keys hk]
    cases h : o.longNames
    · rw [h] at hn; simp only [Bool.false_eq_true, if_false] at hn ⊢; rw [hn]
    · rw [h] at hn; simpa using hn
  unfold writeCSV
  rw [hr, hs]
  dsimp only
  refine ⟨_, rfl, ?_⟩
  rw [foldl_rows]
  have : CsvAll.row o.dialect (writerFields o names) ++ CsvAll.rows o.dialect (recs.map (rowOf v o names)) =
      CsvAll.rows o.dialect (writerFields o names :: recs.map (rowOf v o names)) := by simp [CsvAll.rows]
  rw [this, CsvAll.read_rows _ hd, writerFields_eq]
  congr 1
  exact List.map_congr_left (fun R _ => rowOf_eq v o names R)

/-- C61, long names: if a column has no long name nothing is written and the call raises. -/
theorem C61_long_names (toTag toFull : Str → Option Str) (v : View ρ) (hk : ∀ R, (v.keys R).Nodup) (o : Opts) (hl : o.longNames = true)
    (recs : List ρ) : writeCSV toTag toFull v o recs = .error .keyError ↔ ∃ t ∈ wanted toTag o v.keys recs, toFull t = none := by
  have hm : ∀ l : List Str, l.mapM toFull = none ↔ ∃ t ∈ l, toFull t = none := by
    intro l
    induction l with
    | nil => simp
    | cons a l ih =>
      rw [List.mapM_cons]
      cases ha : toFull a with
      | none => simp [ha]
      | some x =>
        cases hl : l.mapM toFull with
        | none => have := ih.1 hl; simp [hl, ha, this]
        | some y =>
          have : ¬ ∃ t ∈ l, toFull t = none := fun h => by have := ih.2 h; rw [hl] at this; simp at this
          simp [hl, ha]
          intro t ht hc; exact this ⟨t, ht, hc⟩
  rw [← hm, ← shortFields_eq toTag o v.keys hk]
  unfold writeCSV retrievedFields
  simp only [hl, if_true]
  cases h : List.mapM toFull (shortFields toTag o v.keys recs) with
  | none => simp
  | some fields =>
    simp only [reduceCtorEq, iff_false]
    have hsr : ∀ (tag : Str) (vals : List (Bool × Str)) (hdr row : List Str) (f : Dict Str Str) (e : CErr),
        vals.foldlM (splitStep o.dialect hdr row) f = .error e → e = .typeError := by
      intro tag vals hdr row
      induction vals with
      | nil => intro f e h; simp [pure, Except.pure] at h
      | cons a vals ih =>
        intro f e h
        rw [List.foldlM_cons] at h
        cases hx : splitStep o.dialect hdr row f a with
        | error e' =>
          rw [hx] at h
          simp only [bind, Except.bind, Except.error.injEq] at h
          unfold splitStep at hx
          rcases a with ⟨b, s⟩
          cases b
          · simp at hx; rw [← h, ← hx]
          · simp only [if_true] at hx
            cases hg : f.get? s <;> simp [hg] at hx
        | ok f' => rw [hx] at h; exact ih f' e h
    have hall : ∀ (tag : Str) (rs : List ρ) (f : Dict Str Str) (e : CErr),
        rs.foldlM (splitRecord v o fields tag) f = .error e → e = .typeError := by
      intro tag rs
      induction rs with
      | nil => intro f e h; simp [pure, Except.pure] at h
      | cons R rs ih =>
        intro f e h
        rw [List.foldlM_cons] at h
        cases hx : splitRecord v o fields tag f R with
        | error e' =>
          rw [hx] at h
          simp only [bind, Except.bind, Except.error.injEq] at h
          unfold splitRecord at hx
          cases hv : splitVals v tag R with
          | none => rw [hv] at hx; simp at hx
          | some vals => rw [hv] at hx; rw [← h]; exact hsr tag _ _ _ _ _ hx
        | ok f' => rw [hx] at h; exact ih f' e h
    rcases o.splitByTag with _ | (_ | ⟨c, tag⟩)
    · simp
    · simp
    · dsimp only
      cases hx : recs.foldlM (splitRecord v o fields (c :: tag)) [] with
      | ok f => simp
      | error e => have := hall _ _ _ _ hx; subst this; simp

/-- With the default first tags and no selection, asking for long names always raises when `id` is neither a tag nor a long name. -/
theorem C61_long_names_default (toTag toFull : Str → Option Str) (v : View ρ) (hk : ∀ R, (v.keys R).Nodup) (o : Opts)
    (hl : o.longNames = true) (hf : o.firstTags = none) (ho : o.onlyTheseTags = none) (h1 : toTag "id".toList = none)
    (h2 : toFull "id".toList = none) (recs : List ρ) : writeCSV toTag toFull v o recs = .error .keyError := by
  rw [C61_long_names toTag toFull v hk o hl recs]
  refine ⟨"id".toList, ?_, h2⟩
  unfold wanted
  rw [ho, hf]
  simp only [Option.getD_none, List.map_cons, h1]
  simp

/-! ## Split files -/

/-- The files hold, for each value, the header and the rows `rs`. -/
def Rep (d : CsvAll.Dialect) (header : List Str) (files : Dict Str Str) (rs : Str → List (List Str)) : Prop :=
  ∀ s, files.get? s = if rs s = [] then none else some (CsvAll.rows d (header :: rs s))

theorem rep_step (d : CsvAll.Dialect) (header row : List Str) (files : Dict Str Str) (rs : Str → List (List Str))
    (h : Rep d header files rs) (sTag : Str) :
    ∃ f, splitStep d header row files (true, sTag) = .ok f ∧ Rep d header f (fun s => rs s ++ if s = sTag then [row] else []) := by
  unfold splitStep
  simp only [if_true]
  have hs := h sTag
  by_cases he : rs sTag = []
  · rw [if_pos he] at hs
    rw [hs]
    refine ⟨_, rfl, fun s => ?_⟩
    rw [Dict.get?_set]
    by_cases e : s = sTag
    · subst e; simp [he, CsvAll.rows]
    · rw [if_neg (fun h => e h.symm), h s]; simp [e]
  · rw [if_neg he] at hs
    rw [hs]
    refine ⟨_, rfl, fun s => ?_⟩
    rw [Dict.get?_set]
    by_cases e : s = sTag
    · subst e; simp [CsvAll.rows]
    · rw [if_neg (fun h => e h.symm), h s]; simp [e]

theorem rep_vals (d : CsvAll.Dialect) (header row : List Str) (vals : List (Bool × Str)) (hv : ∀ i ∈ vals, i.1 = true)
    (files : Dict Str Str) (rs : Str → List (List Str)) (h : Rep d header files rs) :
    ∃ f, vals.foldlM (splitStep d header row) files = .ok f ∧
      Rep d header f (fun s => rs s ++ List.replicate ((vals.map Prod.snd).count s) row) := by
  induction vals generalizing files rs with
  | nil => exact ⟨files, rfl, by simpa using h⟩
  | cons a vals ih =>
    rcases a with ⟨b, sTag⟩
    have hb : b = true := hv (b, sTag) (by simp)
    subst hb
    obtain ⟨f, h1, h2⟩ := rep_step d header row files rs h sTag
    obtain ⟨f', h3, h4⟩ := ih (fun i hi => hv i (by simp [hi])) f _ h2
    refine ⟨f', ?_, ?_⟩
    · rw [List.foldlM_cons, h1]; exact h3
    · intro s
      rw [h4 s]
      dsimp only
      have : (rs s ++ if s = sTag then [row] else []) ++ List.replicate ((vals.map Prod.snd).count s) row =
          rs s ++ List.replicate ((((true, sTag) :: vals).map Prod.snd).count s) row := by
        rw [List.map_cons, List.count_cons]
        by_cases e : s = sTag
        · subst e; simp [List.replicate_succ]
        · have : ¬ (sTag = s) := fun h => e h.symm
          simp [e, this]
      simp only [this]

theorem splitVals_eq (v : View ρ) (tag : Str) (R : ρ) (hm : ¬ Mixed v tag R) :
    (splitVals v tag R = none ∧ valuesOf v tag R = []) ∨
    ∃ vals, splitVals v tag R = some vals ∧ (∀ i ∈ vals, i.1 = true) ∧ vals.map Prod.snd = valuesOf v tag R := by
  unfold splitVals valuesOf
  rcases hg : v.get R tag with _ | x
  · exact Or.inl ⟨rfl, rfl⟩
  · refine Or.inr ?_
    rcases x with s | ⟨b, t, items⟩ | _ | t
    · exact ⟨_, rfl, by simp, rfl⟩
    · cases b
      · exact ⟨_, rfl, by simp, rfl⟩
      · refine ⟨items, rfl, ?_, rfl⟩
        intro i hi
        by_contra hc
        exact hm ⟨t, items, hg, i, hi, by simpa using hc⟩
    · exact ⟨_, rfl, by simp, rfl⟩
    · exact ⟨_, rfl, by simp, rfl⟩

theorem rep_recs (v : View ρ) (o : Opts) (fields : List Str) (tag : Str) (recs : List ρ) (hm : ∀ R ∈ recs, ¬ Mixed v tag R)
    (files : Dict Str Str) (rs : Str → List (List Str)) (h : Rep o.dialect (fields ++ added o) files rs) :
    ∃ f, recs.foldlM (splitRecord v o fields tag) files = .ok f ∧
      Rep o.dialect (fields ++ added o) f (fun s => rs s ++ rowsFor v o (fields ++ added o) tag s recs) := by
  induction recs generalizing files rs with
  | nil => exact ⟨files, rfl, by simpa [rowsFor] using h⟩
  | cons R recs ih =>
    have h1 : ∃ f, splitRecord v o fields tag files R = .ok f ∧ Rep o.dialect (fields ++ added o) f
        (fun s => rs s ++ List.replicate ((valuesOf v tag R).count s) ((fields ++ added o).map (cellText v o R))) := by
      unfold splitRecord
      rcases splitVals_eq v tag R (hm R (by simp)) with ⟨e1, e2⟩ | ⟨vals, e1, e2, e3⟩
      · rw [e1, e2]; exact ⟨files, rfl, by simpa using h⟩
      · rw [e1, ← e3, writerFields_eq, rowOf_eq]
        exact rep_vals _ _ _ vals e2 files rs h
    obtain ⟨f, h2, h3⟩ := h1
    obtain ⟨f', h4, h5⟩ := ih (fun R hR => hm R (by simp [hR])) f _ h3
    refine ⟨f', ?_, ?_⟩
    · rw [List.foldlM_cons, h2]; exact h4
    · intro s; rw [h5 s]; simp [rowsFor]

/-- C61, split files: there is one file for each value of the tag that a record has, and no other; it can be read back, and holds the columns
and then, in the order of the collection, the row of each record as often as the record has the value. -/
theorem C61_split (toTag toFull : Str → Option Str) (v : View ρ) (hk : ∀ R, (v.keys R).Nodup) (o : Opts) (hd : o.dialect.Ok) (tag : Str)
    (ht : tag ≠ []) (hs : o.splitByTag = some tag) (recs : List ρ) (names : List Str)
    (hn : if o.longNames then (wanted toTag o v.keys recs).mapM toFull = some names else names = wanted toTag o v.keys recs)
    (hm : ∀ R ∈ recs, ¬ Mixed v tag R) :
    ∃ files, writeCSV toTag toFull v o recs = .ok (.split files) ∧
      (∀ s, (files.get? s).isSome ↔ ∃ R ∈ recs, s ∈ valuesOf v tag R) ∧
      ∀ s text, files.get? s = some text →
        CsvAll.read o.dialect text = (names ++ added o) :: rowsFor v o (names ++ added o) tag s recs := by
  have hr : retrievedFields toTag toFull o v.keys recs = some names := by
    unfold retrievedFields
    rw [shortFields_eq toTag o v.keys hk]
    cases h : o.longNames
    · rw [h] at hn; simp only [Bool.false_eq_true, if_false] at hn ⊢; rw [hn]
    · rw [h] at hn; simpa using hn
  obtain ⟨f, h1, h2⟩ := rep_recs v o names tag recs hm [] (fun _ => []) (by intro s; simp)
  have hz : ∀ s, rowsFor v o (names ++ added o) tag s recs = [] ↔ ¬ ∃ R ∈ recs, s ∈ valuesOf v tag R := by
    intro s
    unfold rowsFor
    rw [List.flatMap_eq_nil_iff]
    push Not
    refine forall₂_congr fun R _ => ?_
    rw [List.replicate_eq_nil_iff, List.count_eq_zero]
  refine ⟨f, ?_, ?_, ?_⟩
  · unfold writeCSV
    rw [hr, hs]
    cases tag with
    | nil => exact absurd rfl ht
    | cons c tag => dsimp only; rw [h1]
  · intro s
    rw [h2 s]
    simp only [List.nil_append]
    by_cases e : rowsFor v o (names ++ added o) tag s recs = []
    · simp only [e, if_true]; simpa using (hz s).1 e
    · simp only [e, if_false, Option.isSome_some, true_iff]
      by_contra hc; exact e ((hz s).2 hc)
  · intro s text hg
    rw [h2 s] at hg
    simp only [List.nil_append] at hg
    by_cases e : rowsFor v o (names ++ added o) tag s recs = []
    · simp [e] at hg
    · simp only [e, if_false, Option.some.injEq] at hg
      rw [← hg, CsvAll.read_rows _ hd]

/-- C61, split files, when it raises: a list with something else than strings among the values of the tag makes the call raise, and so does an
empty name as tag. -/
theorem C61_split_raises (toTag toFull : Str → Option Str) (v : View ρ) (o : Opts) (recs : List ρ) (names : List Str)
    (hr : retrievedFields toTag toFull o v.keys recs = some names) :
    (o.splitByTag = some [] → writeCSV toTag toFull v o recs = .error .unboundLocalError) ∧
    (∀ tag, tag ≠ [] → o.splitByTag = some tag → (∃ R ∈ recs, Mixed v tag R) → writeCSV toTag toFull v o recs = .error .typeError) := by
  constructor
  · intro h; unfold writeCSV; rw [hr, h]
  · rintro tag ht hs ⟨R, hR, t, items, hg, i, hi, hif⟩
    have hvals : ∀ (vals : List (Bool × Str)) (hdr row : List Str) (f : Dict Str Str),
        (∃ i ∈ vals, i.1 = false) → vals.foldlM (splitStep o.dialect hdr row) f = .error .typeError := by
      intro vals hdr row
      induction vals with
      | nil => rintro f ⟨i, hi, _⟩; simp at hi
      | cons a vals ih =>
        rintro f ⟨i, hi, hif⟩
        rw [List.foldlM_cons]
        rcases a with ⟨b, s⟩
        cases b with
        | false => simp [splitStep, bind, Except.bind]
        | true =>
          have : ∃ f', splitStep o.dialect hdr row f (true, s) = .ok f' := by
            unfold splitStep; simp only [if_true]; cases f.get? s <;> exact ⟨_, rfl⟩
          obtain ⟨f', hf⟩ := this
          rw [hf]
          refine ih f' ⟨i, ?_, hif⟩
          rcases List.mem_cons.1 hi with rfl | hi
          · simp at hif
          · exact hi
    have hok : ∀ (vals : List (Bool × Str)) (hdr row : List Str) (f : Dict Str Str),
        vals.foldlM (splitStep o.dialect hdr row) f = .error .typeError ∨ ∃ f', vals.foldlM (splitStep o.dialect hdr row) f = .ok f' := by
      intro vals hdr row
      induction vals with
      | nil => intro f; exact Or.inr ⟨f, rfl⟩
      | cons a vals ih =>
        intro f
        rw [List.foldlM_cons]
        rcases a with ⟨b, s⟩
        cases b with
        | false => left; simp [splitStep, bind, Except.bind]
        | true =>
          have : ∃ f', splitStep o.dialect hdr row f (true, s) = .ok f' := by
            unfold splitStep; simp only [if_true]; cases f.get? s <;> exact ⟨_, rfl⟩
          obtain ⟨f', hf⟩ := this
          rw [hf]; exact ih f'
    have hrec : ∀ (rs : List ρ) (f : Dict Str Str), R ∈ rs → rs.foldlM (splitRecord v o names tag) f = .error .typeError := by
      intro rs
      induction rs with
      | nil => intro f h; simp at h
      | cons Q rs ih =>
        intro f h
        rw [List.foldlM_cons]
        by_cases hq : Q = R
        · subst hq
          have : splitRecord v o names tag f Q = .error .typeError := by
            unfold splitRecord splitVals; rw [hg]; exact hvals items _ _ f ⟨i, hi, hif⟩
          rw [this]; rfl
        · have hin : R ∈ rs := by
            rcases List.mem_cons.1 h with h | h
            · exact absurd h.symm hq
            · exact h
          have : splitRecord v o names tag f Q = .error .typeError ∨ ∃ f', splitRecord v o names tag f Q = .ok f' := by
            unfold splitRecord
            cases splitVals v tag Q with
            | none => exact Or.inr ⟨f, rfl⟩
            | some vals => exact hok vals _ _ f
          rcases this with h1 | ⟨f', h1⟩
          · rw [h1]; rfl
          · rw [h1]; exact ih f' hin
    unfold writeCSV
    rw [hr, hs]
    cases tag with
    | nil => exact absurd rfl ht
    | cons c tag => dsimp only; rw [hrec recs [] hR]

/-- C61, file names: two values have the same file exactly when their first 200 characters agree. -/
theorem C61_fileName (base a b : Str) : fileName base a = fileName base b ↔ a.take 200 = b.take 200 := by
  unfold fileName
  rw [List.append_left_inj, List.append_left_inj]

/-- C61, the name of the file: the one given, or that of the collection cut to 200 characters; an empty name counts as none. -/
theorem C61_baseName (o : Opts) (collName : Str) :
    (∀ name, name ≠ [] → o.fname = some name → baseName o collName = name) ∧
    (o.fname = none ∨ o.fname = some [] → baseName o collName = collName.take 200 ++ ".csv".toList) := by
  unfold baseName
  constructor
  · intro name hn h
    rw [h]
    cases name with
    | nil => exact absurd rfl hn
    | cons c s => rfl
  · rintro (h | h) <;> rw [h]

/-- So two values of a tag can share a file, against the claim that each value has its own. -/
theorem C61_shared_file : ∃ base a b : Str, a ≠ b ∧ fileName base a = fileName base b :=
  ⟨[], List.replicate 201 'a', List.replicate 200 'a', by decide +kernel, by decide +kernel⟩

/-! ## The lists given by the caller -/

/-- C61, what the call does to the list given as `firstTags`: without a selection, long names and the number of authors it ends up with the
columns of this collection and of the gender counts appended, so the arguments are changed and the next call with the same list has them as
first tags. -/
theorem C61_first_tags_changed (toTag : Str → Option Str) (o : Opts) (keys : ρ → List Str) (hk : ∀ R, (keys R).Nodup) (recs : List ρ)
    (ho : o.onlyTheseTags = none) (hl : o.longNames = false) :
    firstAfter toTag o keys recs = wanted toTag o keys recs ++ (if o.numAuthors then [] else added o) := by
  unfold firstAfter
  rw [ho, hl, shortFields_eq toTag o keys hk]
  simp only [Bool.false_eq_true, if_false]
  unfold loopFields
  rw [writerFields_eq]
  split <;> simp_all

/-- C61, with a selection, or with long names, the list given as `firstTags` ends up with the tags in place of the names, in the second case
followed by the tags of this collection. -/
theorem C61_first_tags_otherwise (toTag : Str → Option Str) (o : Opts) (keys : ρ → List Str) (hk : ∀ R, (keys R).Nodup) (recs : List ρ) :
    (∀ only, only ≠ [] → o.onlyTheseTags = some only → ∀ first, o.firstTags = some first →
      firstAfter toTag o keys recs = first.map (fun t => (toTag t).getD t)) ∧
    (o.onlyTheseTags = none → o.longNames = true → firstAfter toTag o keys recs = wanted toTag o keys recs) := by
  constructor
  · intro only hn h first hf
    unfold firstAfter
    rw [h, hf]
    cases only with
    | nil => exact absurd rfl hn
    | cons t l => rfl
  · intro ho hl
    unfold firstAfter
    rw [ho, hl, shortFields_eq toTag o keys hk]
    simp only [if_true]

/-- A second call with the same list then writes the gender counts twice. -/
theorem C61_twice_counts :
    ∃ (o : Opts) (keys : Unit → List Str), o.firstTags = some [] ∧
      writerFields o (shortFields (fun _ => none) { o with firstTags := some (firstAfter (fun _ => none) o keys [()]) } keys [()]) =
        ["T", "num-Male", "num-Female", "num-Unknown", "num-Male", "num-Female", "num-Unknown"].map String.toList :=
  ⟨⟨none, none, none, false, true, false, some [], ⟨',', '"'⟩, ['|']⟩, fun _ => [['T']], rfl, by decide +kernel⟩

/-! ## Examples -/

private def v0 : View Nat where
  keys := fun n => if n = 0 then ["TI".toList, "AU".toList] else ["PY".toList, "TI".toList]
  get := fun n t =>
    if n = 0 then
      if t = "TI".toList then some (.str "A \"b\",\r\nc".toList)
      else if t = "AU".toList then some (.iter true [] [(true, "X".toList), (true, "Y".toList), (true, "X".toList)]) else none
    else
      if t = "TI".toList then some (.str "B".toList) else if t = "PY".toList then some (.other "2001".toList)
      else if t = "AU".toList then some (.iter true [] [(true, "Y".toList)]) else none
  authors := fun n => if n = 0 then 3 else 0
  genders := fun n => (n, 1, 2)

private def o0 : Opts := ⟨none, none, none, true, true, false, some ["title".toList], ⟨';', '\''⟩, ['|']⟩

private def tt (t : Str) : Option Str := if t = "title".toList then some "TI".toList else none

example : (∀ R, (v0.keys R).Nodup) ∧ o0.dialect.Ok := by
  refine ⟨fun R => ?_, by decide⟩
  by_cases h : R = 0
  · subst h; decide +kernel
  · simp only [v0, h, if_false]; decide +kernel

example : wanted tt o0 v0.keys [0, 1] = ["TI".toList, "AU".toList, "PY".toList] := by decide +kernel

example : (match writeCSV tt (fun _ => none) v0 o0 [0, 1] with
    | .ok (.single t) => CsvAll.read o0.dialect t
    | _ => []) =
  [["TI".toList, "AU".toList, "PY".toList, "num-Authors".toList, "num-Male".toList, "num-Female".toList, "num-Unknown".toList],
   ["A \"b\",\r\nc".toList, "X|Y|X".toList, [], "3".toList, "0".toList, "1".toList, "2".toList],
   ["B".toList, "Y".toList, "2001".toList, "0".toList, "1".toList, "1".toList, "2".toList]] := by decide +kernel

private def o1 : Opts := ⟨none, some "AU".toList, some ["title".toList], false, false, false, none, ⟨';', '\''⟩, ['|']⟩

example : (match writeCSV tt (fun _ => none) v0 o1 [0, 1] with
    | .ok (.split fs) => fs.map (fun p => (p.1, (CsvAll.read o0.dialect p.2).length))
    | _ => []) = [("X".toList, 3), ("Y".toList, 3)] := by decide +kernel

example : ∃ R, Mixed (⟨fun _ => [], fun _ _ => some (.iter true [] [(false, "c".toList)]), fun _ => 0, fun _ => (0, 0, 0)⟩ : View Nat)
    "citations".toList R := ⟨0, [], _, rfl, (false, "c".toList), by simp, rfl⟩

end Verif.Props.WriteCsv
