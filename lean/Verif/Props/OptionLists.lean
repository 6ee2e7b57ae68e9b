import Verif.Spec.OptionLists
import Verif.Props.WriteCsv
import Verif.Props.Tables

/-! # C94: lists of tags can be used for several calls -/
set_option autoImplicit false
set_option linter.unusedSimpArgs false
namespace Verif.Props.OptionLists
open Verif.Py Verif Verif.Model Verif.Model.OptionLists Verif.Spec.OptionLists

variable {V ρ : Type}

/-- The name of a column for what the caller wrote: the tag for a long name. -/
def name (toTag : Str → Option Str) (t : Str) : Str := (toTag t).getD t

theorem inPlace_true (toTag : Str → Option Str) (l : List Str) : inPlace toTag true l = some (l.map (name toTag)) := by
  induction l with
  | nil => rfl
  | cons t ts ih =>
    unfold inPlace
    rw [ih]
    cases h : toTag t <;> simp [name, h]

theorem selectionAfter_eq (toTag : Str → Option Str) (l : List Str) : selectionAfter toTag l = l.map (name toTag) := by
  unfold selectionAfter
  rw [inPlace_true]
  rfl

theorem name_name (toTag : Str → Option Str) (h : ∀ t u, toTag t = some u → toTag u = none) (t : Str) :
    name toTag (name toTag t) = name toTag t := by
  unfold name
  cases ht : toTag t with
  | none => simp [ht]
  | some u => simp [h t u ht]

theorem map_name_name (toTag : Str → Option Str) (h : ∀ t u, toTag t = some u → toTag u = none) (l : List Str) :
    (l.map (name toTag)).map (name toTag) = l.map (name toTag) := by
  rw [List.map_map]
  exact List.map_congr_left (fun t _ => name_name toTag h t)

theorem translate_eq (toTag : Str → Option Str) (l : List Str) : WriteCsv.translate toTag l = l.map (name toTag) := rfl

/-- The file depends on the selection by its translation only. -/
theorem csvOnly_name (e : Env V ρ) (h : ∀ t u, e.toTag t = some u → e.toTag u = none) (o : WriteCsv.Opts) (l : List Str) (recs : List ρ) :
    WriteCsv.writeCSV e.toTag e.toFull e.csv { o with onlyTheseTags := some (l.map (name e.toTag)) } recs =
      WriteCsv.writeCSV e.toTag e.toFull e.csv { o with onlyTheseTags := some l } recs := by
  have hs : WriteCsv.shortFields e.toTag { o with onlyTheseTags := some (l.map (name e.toTag)) } e.csv.keys recs =
      WriteCsv.shortFields e.toTag { o with onlyTheseTags := some l } e.csv.keys recs := by
    cases l with
    | nil => rfl
    | cons t ts =>
      have hm := map_name_name e.toTag h (t :: ts)
      simp only [List.map_cons] at hm
      simp only [WriteCsv.shortFields, translate_eq, List.map_cons, hm]
  have hr : WriteCsv.retrievedFields e.toTag e.toFull { o with onlyTheseTags := some (l.map (name e.toTag)) } e.csv.keys recs =
      WriteCsv.retrievedFields e.toTag e.toFull { o with onlyTheseTags := some l } e.csv.keys recs := by
    simp only [WriteCsv.retrievedFields, hs]
  unfold WriteCsv.writeCSV
  rw [hr]
  rfl

/-- The file depends on the first tags by their translation only. -/
theorem csvFirst_name (e : Env V ρ) (h : ∀ t u, e.toTag t = some u → e.toTag u = none) (o : WriteCsv.Opts) (l : List Str) (recs : List ρ) :
    WriteCsv.writeCSV e.toTag e.toFull e.csv { o with firstTags := some (l.map (name e.toTag)) } recs =
      WriteCsv.writeCSV e.toTag e.toFull e.csv { o with firstTags := some l } recs := by
  have hs : WriteCsv.shortFields e.toTag { o with firstTags := some (l.map (name e.toTag)) } e.csv.keys recs =
      WriteCsv.shortFields e.toTag { o with firstTags := some l } e.csv.keys recs := by
    have hm := map_name_name e.toTag h l
    simp only [WriteCsv.shortFields, translate_eq, Option.getD_some, hm]
    rcases o.onlyTheseTags with _ | _ | ⟨t, ts⟩ <;> rfl
  have hr : WriteCsv.retrievedFields e.toTag e.toFull { o with firstTags := some (l.map (name e.toTag)) } e.csv.keys recs =
      WriteCsv.retrievedFields e.toTag e.toFull { o with firstTags := some l } e.csv.keys recs := by
    simp only [WriteCsv.retrievedFields, hs]
  unfold WriteCsv.writeCSV
  rw [hr]
  rfl

theorem call_name (e : Env V ρ) (h : ∀ t u, e.toTag t = some u → e.toTag u = none) (l : List Str) (c : Call ρ) (hc : Selects c) :
    (call e (l.map (name e.toTag)) c).1 = (call e l c).1 ∧ (call e l c).2 = l.map (name e.toTag) := by
  cases c with
  | makeDict longNames na gc recs =>
    refine ⟨?_, selectionAfter_eq _ _⟩
    simp only [call, selectionAfter_eq, map_name_name e.toTag h]
  | csvOnly o recs =>
    refine ⟨?_, selectionAfter_eq _ _⟩
    simp only [call, csvOnly_name e h]
  | csvFirst o recs =>
    obtain ⟨only, hn, ho⟩ := hc
    refine ⟨?_, ?_⟩
    · simp only [call, csvFirst_name e h]
    · simp only [call, WriteCsv.firstAfter, ho]
      cases only with
      | nil => exact absurd rfl hn
      | cons t ts => rfl
  | forNLP o recs => exact hc.elim

/-- C94: any number of calls of `makeDict` and `writeCSV`, on any collections and with any other options, may be given one list as selection (or as
first columns of a selection): every call gives what it gives with a list of its own, provided no tag is also a long name. The list ends up with the tags
in place of the long names. `forNLP` and `writeCSV(firstTags = …)` without a selection are missing: there the property fails. -/
theorem C94_selections_partial (e : Env V ρ) (h : ∀ t u, e.toTag t = some u → e.toTag u = none) (l : List Str) (cs : List (Call ρ))
    (hcs : ∀ c ∈ cs, Selects c) :
    (run e l cs).1 = cs.map (fun c => (call e l c).1) ∧ (cs ≠ [] → (run e l cs).2 = l.map (fun t => (e.toTag t).getD t)) := by
  have key : ∀ (cs : List (Call ρ)), (∀ c ∈ cs, Selects c) →
      (run e (l.map (name e.toTag)) cs).1 = cs.map (fun c => (call e l c).1) ∧ (run e (l.map (name e.toTag)) cs).2 = l.map (name e.toTag) := by
    intro cs
    induction cs with
    | nil => intro _; exact ⟨rfl, rfl⟩
    | cons c cs ih =>
      intro hcs
      have hc := hcs c List.mem_cons_self
      have h1 := call_name e h l c hc
      have h2 := call_name e h (l.map (name e.toTag)) c hc
      rw [map_name_name e.toTag h] at h2
      have h3 := ih (fun d hd => hcs d (List.mem_cons_of_mem _ hd))
      unfold run
      rw [h2.2, h3.1, h3.2, h1.1]
      exact ⟨rfl, rfl⟩
  cases cs with
  | nil => exact ⟨rfl, fun hn => absurd rfl hn⟩
  | cons c cs =>
    have h1 := call_name e h l c (hcs c List.mem_cons_self)
    have h3 := key cs (fun d hd => hcs d (List.mem_cons_of_mem _ hd))
    unfold run
    rw [h1.2, h3.1, h3.2]
    exact ⟨rfl, fun _ => rfl⟩

/-- No Web of Science tag is also a long name, so the condition of `C94_selections_partial` is met by the dictionary of the package. -/
theorem C94_no_tag_is_a_name (t u : Str) (h : wosToTag t = some u) : wosToTag u = none := by
  have hall : ∀ p ∈ TagNames.fullToTag, TagNames.fullToTag.get? p.2 = none := by decide +kernel
  exact hall (t, u) (Dict.mem_of_get? h)

/-- The list is left as it was exactly when it holds no long name. -/
theorem C94_left_alone (e : Env V ρ) (h : ∀ t u, e.toTag t = some u → e.toTag u = none) (l : List Str) (c : Call ρ) (hc : Selects c) :
    (call e l c).2 = l ↔ ∀ t ∈ l, e.toTag t = none := by
  rw [(call_name e h l c hc).2]
  constructor
  · intro heq t ht
    have : name e.toTag t = t := by
      have := List.map_eq_map_iff.mp (heq.trans (List.map_id l).symm) t ht
      simpa using this
    cases hx : e.toTag t with
    | none => rfl
    | some u =>
      have hu : u = t := by simpa [name, hx] using this
      rw [hu] at hx
      exact absurd (h t t hx) (by rw [hx]; simp)
  · intro hall
    conv_rhs => rw [← List.map_id l]
    exact List.map_congr_left (fun t ht => by simp [name, hall t ht])

/-- A tuple does as selection for `makeDict` exactly when it holds no long name; it then gives what a list gives. -/
theorem C94_tuple (e : Env V ρ) (l : List Str) (longNames na gc : Bool) (recs : List ρ) :
    (makeDictTuple e l longNames na gc recs = none ↔ ∃ t ∈ l, ∃ u, e.toTag t = some u) ∧
    (∀ r, makeDictTuple e l longNames na gc recs = some r → (call e l (.makeDict longNames na gc recs)).1 = .table r) := by
  have key : ∀ l, (inPlace e.toTag false l = none ∧ ∃ t ∈ l, ∃ u, e.toTag t = some u) ∨
      (inPlace e.toTag false l = some l ∧ ∀ t ∈ l, e.toTag t = none) := by
    intro l
    induction l with
    | nil => exact .inr ⟨rfl, by simp⟩
    | cons t ts ih =>
      unfold inPlace
      cases ht : e.toTag t with
      | some u => exact .inl ⟨by simp, t, List.mem_cons_self, u, ht⟩
      | none =>
        rcases ih with ⟨h1, t', ht', u, hu⟩ | ⟨h1, h2⟩
        · exact .inl ⟨by simp [h1], t', List.mem_cons_of_mem _ ht', u, hu⟩
        · exact .inr ⟨by simp [h1], by simpa [ht] using h2⟩
  unfold makeDictTuple
  rcases key l with ⟨h1, h2⟩ | ⟨h1, h2⟩
  · rw [h1]
    exact ⟨⟨fun _ => h2, fun _ => rfl⟩, fun r hr => by simp at hr⟩
  · rw [h1]
    refine ⟨⟨fun hn => by simp at hn, fun ⟨t, ht, u, hu⟩ => by rw [h2 t ht] at hu; cases hu⟩, fun r hr => ?_⟩
    have hl : l.map (name e.toTag) = l := by
      conv_rhs => rw [← List.map_id l]
      exact List.map_congr_left (fun t ht => by simp [name, h2 t ht])
    simp only [Option.some.injEq] at hr
    simp only [call, selectionAfter_eq, hl, hr]

/-! ## forNLP -/

theorem count_extraList (l : List Str) (c : Str) :
    (Tables.extraList (some l)).count c = l.count c - (if c ∈ Tables.builtins then 1 else 0) := by
  have herase : ∀ (l : List Str) (b : Str), (if b ∈ l then l.erase b else l) = l.erase b := by
    intro l b
    by_cases hb : b ∈ l
    · rw [if_pos hb]
    · rw [if_neg hb, List.erase_of_not_mem hb]
  have key : ∀ (bs : List Str), bs.Nodup → ∀ l : List Str,
      (bs.foldl (fun l b => if b ∈ l then l.erase b else l) l).count c = l.count c - (if c ∈ bs then 1 else 0) := by
    intro bs
    induction bs with
    | nil => intro _ l; simp
    | cons b bs ih =>
      intro hn l
      rw [List.nodup_cons] at hn
      rw [List.foldl_cons, herase, ih hn.2]
      by_cases hcb : c = b
      · subst hcb
        rw [List.count_erase_self]
        simp [hn.1]
      · rw [List.count_erase_of_ne (by simpa using hcb)]
        simp [hcb]
  exact key Tables.builtins (by decide +kernel) l

theorem extraList_clean (l : List Str) (h : ∀ c, BuiltIn c → c ∉ l) : Tables.extraList (some l) = l := by
  have key : ∀ (bs : List Str), (∀ b ∈ bs, b ∉ l) → bs.foldl (fun l b => if b ∈ l then l.erase b else l) l = l := by
    intro bs
    induction bs with
    | nil => intro _; rfl
    | cons b bs ih =>
      intro hb
      rw [List.foldl_cons, if_neg (hb b List.mem_cons_self)]
      exact ih (fun b' hb' => hb b' (List.mem_cons_of_mem _ hb'))
  exact key Tables.builtins (fun b hb => h b hb)

theorem forNLP_of_extraList (e : Env V ρ) (o : Tables.NlpOpts) (l l' : List Str) (recs : List ρ)
    (h : Tables.extraList (some l) = Tables.extraList (some l')) :
    Tables.forNLP e.chars o e.nlp (some l) recs = Tables.forNLP e.chars o e.nlp (some l') recs := by
  unfold Tables.forNLP
  rw [h]

/-- C94 for `forNLP`: if no built-in column is listed twice, any number of calls with one list of extra columns give what each gives with a list of
its own, and the list ends up without the built-in columns. -/
theorem C94_nlp_partial (e : Env V ρ) (l : List Str) (hl : ∀ c, BuiltIn c → l.count c ≤ 1) (cs : List (Call ρ))
    (hcs : ∀ c ∈ cs, ∃ o recs, c = .forNLP o recs) :
    (run e l cs).1 = cs.map (fun c => (call e l c).1) ∧
    (cs ≠ [] → ∀ c, (run e l cs).2.count c = if c ∈ ["id".toList, "year".toList, "title".toList, "keywords".toList, "abstract".toList] then 0 else l.count c) := by
  have hclean : Tables.extraList (some (Tables.extraList (some l))) = Tables.extraList (some l) := by
    apply extraList_clean
    intro c hc hmem
    have h1 := count_extraList l c
    rw [if_pos (show c ∈ Tables.builtins from hc)] at h1
    have h2 := List.count_pos_iff.mpr hmem
    have h3 := hl c hc
    omega
  have key : ∀ (cs : List (Call ρ)), (∀ c ∈ cs, ∃ o recs, c = Call.forNLP o recs) →
      (run e (Tables.extraList (some l)) cs).1 = cs.map (fun c => (call e l c).1) ∧ (run e (Tables.extraList (some l)) cs).2 = Tables.extraList (some l) := by
    intro cs
    induction cs with
    | nil => intro _; exact ⟨rfl, rfl⟩
    | cons c cs ih =>
      intro hcs
      obtain ⟨o, recs, rfl⟩ := hcs c List.mem_cons_self
      have h3 := ih (fun d hd => hcs d (List.mem_cons_of_mem _ hd))
      unfold run
      simp only [call, hclean, h3.1, h3.2, List.map_cons]
      rw [forNLP_of_extraList e o _ l recs hclean]
      exact ⟨rfl, trivial⟩
  cases cs with
  | nil => exact ⟨rfl, fun hn => absurd rfl hn⟩
  | cons c cs =>
    obtain ⟨o, recs, rfl⟩ := hcs c List.mem_cons_self
    have h3 := key cs (fun d hd => hcs d (List.mem_cons_of_mem _ hd))
    unfold run
    simp only [call, h3.1, h3.2, List.map_cons]
    refine ⟨trivial, fun _ c => ?_⟩
    rw [count_extraList]
    by_cases hc : c ∈ Tables.builtins
    · have := hl c hc
      rw [if_pos hc, if_pos (show c ∈ ["id".toList, "year".toList, "title".toList, "keywords".toList, "abstract".toList] from hc)]
      omega
    · rw [if_neg hc, if_neg (show c ∉ ["id".toList, "year".toList, "title".toList, "keywords".toList, "abstract".toList] from hc)]
      omega

/-- C94 fails when `forNLP` shares its list with another call: the built-in columns are gone from it. Here the second call, which selects the title and
the year, gives a table without the title, and with a list of its own a table with it. -/
theorem C94_nlp_shared :
    ∃ (e : Env Nat Unit) (l : List Str) (first second : Call Unit) (t1 t2 : Dict Str (List Nat)),
      e.toTag = wosToTag ∧ l = ["title".toList, "PY".toList] ∧ (run e l [first, second]).1[1]? = some (.table (some t1)) ∧
      (call e l second).1 = .table (some t2) ∧ t1 = [("PY".toList, [7])] ∧ t2 = [("TI".toList, [7]), ("PY".toList, [7])] :=
  ⟨⟨wosToTag, fun _ => none, ⟨[], [], [], []⟩, ⟨fun _ => [], fun _ _ => 7, fun _ => 0, fun _ => (0, 0, 0)⟩,
      ⟨fun _ => 0, fun _ => 0, fun _ => 0, fun _ => 0, fun _ => [], fun _ => [], fun _ _ => .missing⟩, ⟨fun _ => false, fun _ => true, fun _ => false, id⟩,
      ⟨fun _ => [], fun _ _ => none, fun _ => 0, fun _ => (0, 0, 0)⟩⟩,
    ["title".toList, "PY".toList], .forNLP ⟨none, false, false, false, false, false, none⟩ [()], .makeDict false false false [()], _, _, rfl, rfl, rfl, rfl,
    by decide +kernel, by decide +kernel⟩

/-- What is left of a list of extra columns after `forNLP`: every built-in column is taken out once. -/
theorem C94_nlp_list (e : Env V ρ) (l : List Str) (o : Tables.NlpOpts) (recs : List ρ) (c : Str) :
    (call e l (.forNLP o recs)).2.count c =
      l.count c - (if c ∈ ["id".toList, "year".toList, "title".toList, "keywords".toList, "abstract".toList] then 1 else 0) :=
  count_extraList l c

/-! ## First columns -/

theorem mem_firstAfter (e : Env V ρ) (hk : ∀ R, (e.csv.keys R).Nodup) (o : WriteCsv.Opts) (ho : o.onlyTheseTags = none) (l : List Str) (recs : List ρ)
    (t : Str) (ht : t ∈ l.map (name e.toTag) ∨ ∃ R ∈ recs, t ∈ e.csv.keys R) :
    t ∈ WriteCsv.firstAfter e.toTag { o with firstTags := some l } e.csv.keys recs := by
  have hw : t ∈ Spec.WriteCsv.wanted e.toTag { o with firstTags := some l } e.csv.keys recs := by
    rw [WriteCsv.C61_unselected e.toTag { o with firstTags := some l } e.csv.keys recs l rfl ho]
    rcases ht with h | h
    · rw [List.mem_map] at h
      obtain ⟨s, h1, h2⟩ := h
      exact .inl ⟨s, h1, h2.symm⟩
    · exact .inr h
  rw [← WriteCsv.shortFields_eq e.toTag _ e.csv.keys hk] at hw
  simp only [ho] at hw
  unfold WriteCsv.firstAfter
  rw [show ({ o with firstTags := some l } : WriteCsv.Opts).onlyTheseTags = none from ho]
  dsimp only
  split
  · exact hw
  · unfold WriteCsv.loopFields
    split
    · exact hw
    · rw [WriteCsv.writerFields_eq]
      exact List.mem_append_left _ hw

/-- C94 fails for `writeCSV(firstTags = l)` without a selection: after any series of such calls on any collections, the file of a further one has a column for
every tag of every record of the earlier ones, whatever records it is about. -/
theorem C94_first_grows (e : Env V ρ) (hk : ∀ R, (e.csv.keys R).Nodup) (l : List Str) (cs : List (Call ρ))
    (hcs : ∀ c ∈ cs, ∃ o recs, c = .csvFirst o recs ∧ o.onlyTheseTags = none)
    (o : WriteCsv.Opts) (recs : List ρ) (ho : o.onlyTheseTags = none) (hl : o.longNames = false) (hs : o.splitByTag = none) (hd : o.dialect.Ok) :
    ∃ header rows text, (call e (run e l cs).2 (.csvFirst o recs)).1 = .file (.ok (.single text)) ∧ CsvAll.read o.dialect text = header :: rows ∧
      ∀ o' recs', .csvFirst o' recs' ∈ cs → ∀ R ∈ recs', ∀ t ∈ e.csv.keys R, e.toTag t = none → t ∈ header := by
  have keep : ∀ (cs : List (Call ρ)), (∀ c ∈ cs, ∃ o recs, c = Call.csvFirst o recs ∧ o.onlyTheseTags = none) → ∀ l t, e.toTag t = none → t ∈ l →
      t ∈ (run e l cs).2 := by
    intro cs
    induction cs with
    | nil => intro _ l t _ h; exact h
    | cons c cs ih =>
      intro hcs l t hn h
      obtain ⟨o, recs, rfl, ho⟩ := hcs c List.mem_cons_self
      unfold run
      apply ih (fun d hd => hcs d (List.mem_cons_of_mem _ hd)) _ _ hn
      exact mem_firstAfter e hk o ho l recs t (.inl (List.mem_map.mpr ⟨t, h, by simp [name, hn]⟩))
  have got : ∀ (cs : List (Call ρ)), (∀ c ∈ cs, ∃ o recs, c = Call.csvFirst o recs ∧ o.onlyTheseTags = none) → ∀ l,
      ∀ o' recs', Call.csvFirst o' recs' ∈ cs → ∀ R ∈ recs', ∀ t ∈ e.csv.keys R, e.toTag t = none → t ∈ (run e l cs).2 := by
    intro cs
    induction cs with
    | nil => intro _ l o' recs' h; simp at h
    | cons c cs ih =>
      intro hcs l o' recs' hm R hR t ht hn
      obtain ⟨o, recs, rfl, ho⟩ := hcs c List.mem_cons_self
      have hrest := fun d hd => hcs d (List.mem_cons_of_mem (Call.csvFirst o recs) hd)
      unfold run
      rcases List.mem_cons.mp hm with heq | hm
      · injection heq with h1 h2
        subst h1 h2
        exact keep cs hrest _ t hn (mem_firstAfter e hk o' ho l recs' t (.inr ⟨R, hR, ht⟩))
      · exact ih hrest _ o' recs' hm R hR t ht hn
  obtain ⟨text, h1, h2⟩ := WriteCsv.C61_file e.toTag e.toFull e.csv hk { o with firstTags := some (run e l cs).2 } hd hs recs _
    (by rw [if_neg (by simp [hl])])
  refine ⟨_, _, text, ?_, h2, ?_⟩
  · simp only [call, h1]
  · intro o' recs' hm R hR t ht hn
    apply List.mem_append_left
    rw [WriteCsv.C61_unselected e.toTag { o with firstTags := some (run e l cs).2 } e.csv.keys recs _ rfl ho]
    exact .inl ⟨t, got cs hcs l o' recs' hm R hR t ht hn, by simp [hn]⟩

theorem allFields_of_subset (keys : ρ → List Str) (l : List Str) (recs : List ρ) (h : ∀ R ∈ recs, ∀ t ∈ keys R, t ∈ l) :
    WriteCsv.allFields keys l recs = l := by
  unfold WriteCsv.allFields
  induction recs with
  | nil => rfl
  | cons R recs ih =>
    rw [List.foldl_cons]
    have : (keys R).filter (fun t => t ∉ l) = [] := by
      rw [List.filter_eq_nil_iff]
      intro t ht
      simp [h R List.mem_cons_self t ht]
    rw [this, List.append_nil]
    exact ih (fun R' hR' => h R' (List.mem_cons_of_mem _ hR'))

/-- C94 for first columns, what is left of it: the same call on the same collection, with the number of authors (or without counts of genders), gives the same
file however often it is repeated with the same list, when the records hold tags and not long names. -/
theorem C94_first_partial (e : Env V ρ) (h : ∀ t u, e.toTag t = some u → e.toTag u = none) (hk : ∀ R, (e.csv.keys R).Nodup) (l : List Str)
    (o : WriteCsv.Opts) (recs : List ρ) (ho : o.onlyTheseTags = none) (hc : o.numAuthors = true ∨ o.genderCounts = false)
    (ht : ∀ R ∈ recs, ∀ t ∈ e.csv.keys R, e.toTag t = none) (n : Nat) :
    (run e l (List.replicate n (.csvFirst o recs))).1 = List.replicate n (call e l (.csvFirst o recs)).1 := by
  let w := WriteCsv.shortFields e.toTag { o with firstTags := some l } e.csv.keys recs
  have hafter : ∀ l', WriteCsv.firstAfter e.toTag { o with firstTags := some l' } e.csv.keys recs =
      WriteCsv.shortFields e.toTag { o with firstTags := some l' } e.csv.keys recs := by
    intro l'
    unfold WriteCsv.firstAfter
    rw [show ({ o with firstTags := some l' } : WriteCsv.Opts).onlyTheseTags = none from ho]
    dsimp only
    split
    · rfl
    · unfold WriteCsv.loopFields WriteCsv.writerFields
      rcases hc with hc | hc
      · simp [hc]
      · simp [hc]
  have hshort : ∀ l', WriteCsv.shortFields e.toTag { o with firstTags := some l' } e.csv.keys recs =
      WriteCsv.allFields e.csv.keys (l'.map (name e.toTag)) recs := by
    intro l'
    unfold WriteCsv.shortFields
    rw [show ({ o with firstTags := some l' } : WriteCsv.Opts).onlyTheseTags = none from ho]
    rfl
  have hw : ∀ t, t ∈ w ↔ t ∈ l.map (name e.toTag) ∨ ∃ R ∈ recs, t ∈ e.csv.keys R := by
    intro t
    have := WriteCsv.C61_unselected e.toTag { o with firstTags := some l } e.csv.keys recs l rfl ho t
    rw [← WriteCsv.shortFields_eq e.toTag _ e.csv.keys hk] at this
    rw [show (t ∈ w) = (t ∈ WriteCsv.shortFields e.toTag { o with firstTags := some l } e.csv.keys recs) from rfl, this, List.mem_map]
    exact or_congr ⟨fun ⟨s, a, b⟩ => ⟨s, a, b.symm⟩, fun ⟨s, a, b⟩ => ⟨s, a, b.symm⟩⟩ Iff.rfl
  have hwn : w.map (name e.toTag) = w := by
    conv_rhs => rw [← List.map_id w]
    apply List.map_congr_left
    intro t htw
    rcases (hw t).mp htw with h1 | ⟨R, hR, h1⟩
    · rw [List.mem_map] at h1
      obtain ⟨s, _, rfl⟩ := h1
      exact name_name e.toTag h s
    · simp [name, ht R hR t h1]
  have hww : WriteCsv.shortFields e.toTag { o with firstTags := some w } e.csv.keys recs = w := by
    rw [hshort, hwn]
    exact allFields_of_subset _ _ _ (fun R hR t h1 => (hw t).mpr (.inr ⟨R, hR, h1⟩))
  have hfile : (call e w (.csvFirst o recs)).1 = (call e l (.csvFirst o recs)).1 := by
    have hr : WriteCsv.retrievedFields e.toTag e.toFull { o with firstTags := some w } e.csv.keys recs =
        WriteCsv.retrievedFields e.toTag e.toFull { o with firstTags := some l } e.csv.keys recs := by
      simp only [WriteCsv.retrievedFields, hww]
      rfl
    simp only [call]
    unfold WriteCsv.writeCSV
    rw [hr]
    rfl
  have key : ∀ n, (run e w (List.replicate n (.csvFirst o recs))).1 = List.replicate n (call e l (.csvFirst o recs)).1 := by
    intro n
    induction n with
    | zero => rfl
    | succ n ih =>
      rw [List.replicate_succ, List.replicate_succ]
      unfold run
      rw [hfile, show (call e w (.csvFirst o recs)).2 = w from (hafter w).trans hww, ih]
  cases n with
  | zero => rfl
  | succ n =>
    rw [List.replicate_succ, List.replicate_succ]
    unfold run
    rw [show (call e l (.csvFirst o recs)).2 = w from hafter l, key n]

/-! ## Examples -/

private def e0 : Env Nat Nat where
  toTag := wosToTag
  toFull := fun _ => none
  ex := ⟨"num-Authors".toList, "num-Male".toList, "num-Female".toList, "num-Unknown".toList⟩
  dict := ⟨fun _ => [], fun n _ => n, fun n => n + 1, fun n => (n, 0, 1)⟩
  nlp := ⟨fun s => s.length, fun n => n, fun _ => 0, fun _ => 0, fun _ => [], fun _ => [], fun _ _ => .missing⟩
  chars := ⟨fun _ => false, fun _ => true, fun _ => false, id⟩
  csv := ⟨fun n => if n = 0 then ["TI".toList] else ["TI".toList, "AU".toList], fun _ t => some (.str t), fun n => n, fun _ => (1, 0, 0)⟩

private def o0 : WriteCsv.Opts := ⟨none, none, none, true, true, false, none, ⟨',', '"'⟩, ['|']⟩

private def cs0 : List (Call Nat) := [.makeDict false false false [3, 4], .csvOnly o0 [0, 1], .csvFirst { o0 with onlyTheseTags := some [['X']] } [1]]

example : (∀ t u, e0.toTag t = some u → e0.toTag u = none) ∧ (∀ c ∈ cs0, Selects c) ∧ cs0 ≠ [] ∧
    (call e0 ["year".toList, "TI".toList] cs0[0]).2 = ["PY".toList, "TI".toList] := by
  refine ⟨C94_no_tag_is_a_name, ?_, by simp [cs0], by decide +kernel⟩
  intro c hc
  simp only [cs0, List.mem_cons, List.not_mem_nil, or_false] at hc
  rcases hc with rfl | rfl | rfl
  · trivial
  · trivial
  · exact ⟨[['X']], by simp, rfl⟩

example : (∃ t ∈ ["year".toList], ∃ u, e0.toTag t = some u) ∧ makeDictTuple e0 ["PY".toList] false false false [3] = some (some [("PY".toList, [3])]) :=
  ⟨⟨_, List.mem_cons_self, "PY".toList, by decide +kernel⟩, by decide +kernel⟩

example : (∀ c, BuiltIn c → ["title".toList, "PY".toList].count c ≤ 1) ∧ BuiltIn "title".toList ∧
    (call e0 ["title".toList, "PY".toList] (.forNLP ⟨none, false, false, false, false, false, none⟩ [0])).2 = ["PY".toList] := by
  refine ⟨?_, by unfold BuiltIn; decide +kernel, by decide +kernel⟩
  intro c _
  exact List.nodup_iff_count.mp (by decide +kernel) c

example : (∀ R, (e0.csv.keys R).Nodup) ∧ o0.onlyTheseTags = none ∧ o0.longNames = false ∧ o0.splitByTag = none ∧ o0.dialect.Ok ∧ o0.numAuthors = true ∧
    (∀ R ∈ [0, 1], ∀ t ∈ e0.csv.keys R, e0.toTag t = none) ∧
    (call e0 ["year".toList] (.csvFirst o0 [1])).2 = ["PY".toList, "TI".toList, "AU".toList] := by
  refine ⟨fun R => ?_, rfl, rfl, rfl, by decide, rfl, by decide +kernel, by decide +kernel⟩
  by_cases h : R = 0
  · subst h; decide +kernel
  · simp only [e0, h, if_false]; decide +kernel

end Verif.Props.OptionLists
