import Verif.Spec.FileFrames
import Verif.Spec.Copyright
import Verif.Model.FileFrames
import Verif.Props.FileExports
import Verif.Props.Copyright

/-! # C127: from a Web of Science file to the tables of `makeDict` and `forNLP` -/
set_option autoImplicit false
set_option linter.unusedSimpArgs false
namespace Verif.Props.FileFrames
open Verif.Py Verif.Model.WosFields Verif.Model.RecordAccess Verif.Model.Pipeline Verif.Model.FileFrames Verif.Spec.Pipeline Verif.Spec.Derived
  Verif.Spec.FileTables Verif.Spec.FileFrames Verif.Spec.WosMeaning Verif.Spec Verif.Lemmas.Pipeline Verif.Props.Pipeline Verif.Props.FileTables
open Verif.Spec.FileExports (head)

section
variable {W : World} {order : List Model.Wos.Rec → List Model.Wos.Rec} (before : Model.Wos.Rec → List (Op String FVal)) {origin : Str} {papers : List Paper}

theorem val_value (h : Setting W order) (hf : FileOk W.ws origin papers) (hint : ∀ n : Nat, W.prims.int (showNat n) = some (n : Int)) {k : String}
    {val : Paper → Option FVal} (ht : Values W.prims papers k val) {r : Model.Wos.Rec} (hr : r ∈ order (papers.map toRec)) : value W before k r = .ok (val r.fields) := by
  obtain ⟨h1, h2, h3⟩ := of_order h hf hr
  obtain ⟨tag, long, hw, hk, hall⟩ := ht.have_value
  obtain ⟨t1, t2⟩ := hall _ h3
  have hv := value_eq W before h1 tag long k hw hk
  rw [← h2] at hv
  rw [hv]
  cases hx : val r.fields with
  | none => rw [if_pos (t1.1 hx)]
  | some v =>
    have hl : linesOf r.fields tag ≠ [] := fun e => by rw [t1.2 e] at hx; cases hx
    rw [if_neg hl]
    rw [Lemmas.WosMeaning.means_value hint (t2 v hx)]; rfl

theorem in_order (h : Setting W order) : ((order (papers.map toRec)).map Model.Wos.Rec.fields).Perm papers := by
  have := (h.perm (papers.map toRec)).map Model.Wos.Rec.fields
  rw [List.map_map] at this
  exact this.trans (by rw [show (Model.Wos.Rec.fields ∘ toRec) = id from rfl, List.map_id])

/-! ## makeDict -/

theorem not_added : ∀ c ∈ TagTable.wos.map (fun p => (p.1.toList, p.2.toList)), ∀ x ∈ ["num-Authors".toList, "num-Male".toList, "num-Female".toList, "num-Unknown".toList],
    c.1 ≠ x ∧ c.2 ≠ x := by decide +kernel

theorem fields_eq {cols : List (Str × Str)} (hne : cols ≠ []) (hcols : ∀ c ∈ cols, TagTable.Wos c.1 c.2) {only : List Str}
    (honly : List.Forall₂ (fun t c => t = c.1 ∨ t = c.2) only cols) (longNames : Bool) (keys : Model.Wos.Rec → List Str) (rs : List Model.Wos.Rec) :
    Model.Tables.retrievedFields (Model.TagNames.fullToTag.get? ·) (Model.TagNames.wosTags.get? ·) (some only) longNames keys rs = some (cols.map (head longNames)) := by
  have hmap : only.map (fun t => (Model.TagNames.fullToTag.get? t).getD t) = cols.map Prod.fst := by
    clear hne
    induction honly with
    | nil => rfl
    | @cons t c only cols h1 _ ih =>
      obtain ⟨a, b, _⟩ := FileExports.table c (hcols c (by simp))
      rw [List.map_cons, List.map_cons, ih (fun c hc => hcols c (List.mem_cons_of_mem _ hc))]
      rcases h1 with rfl | rfl
      · rw [b]; rfl
      · rw [a]; rfl
  have hne' : only ≠ [] := fun e => by subst e; cases honly; exact hne rfl
  have hlong : ∀ l : List (Str × Str), (∀ c ∈ l, TagTable.Wos c.1 c.2) → (l.map Prod.fst).mapM (Model.TagNames.wosTags.get? ·) = some (l.map Prod.snd) := by
    intro l
    induction l with
    | nil => intro _; rfl
    | cons c l ih =>
      intro hl
      rw [List.map_cons, List.mapM_cons, ih (fun c hc => hl c (List.mem_cons_of_mem _ hc)), (FileExports.table c (hl c (by simp))).2.2.1]
      rfl
  unfold Model.Tables.retrievedFields
  cases only with
  | nil => exact absurd rfl hne'
  | cons t ts =>
    dsimp only
    rw [hmap]
    cases longNames with
    | false => rfl
    | true => rw [if_pos rfl, hlong cols hcols]; rfl

theorem frame_cols (h : Setting W order) (hf : FileOk W.ws origin papers) (hint : ∀ n : Nat, W.prims.int (showNat n) = some (n : Int)) (genders : Paper → Nat × Nat × Nat)
    {cols : List (Str × Str)} (hcols : ∀ c ∈ cols, TagTable.Wos c.1 c.2) (only : Option (List Str)) (longNames na gc : Bool)
    (hfe : Model.Tables.retrievedFields (Model.TagNames.fullToTag.get? ·) (Model.TagNames.wosTags.get? ·) only longNames (dictView W before genders).keys (order (papers.map toRec)) =
      some (cols.map (head longNames))) {cell : Str → Paper → Option FVal}
    (hc : ∀ c ∈ cols, Values W.prims papers (String.ofList (head longNames c)) (cell (head longNames c))) :
    ∃ (d : Dict Str (List (Option FVal))) (inOrder : List Paper), frame W before order genders only longNames na gc (fileText origin papers) = some (.ok (some d)) ∧
      inOrder.Perm papers ∧
      (∀ t, t ∈ d.keys ↔ (∃ c ∈ cols, t = head longNames c) ∨ (na ∧ t = "num-Authors".toList) ∨
        (gc ∧ (t = "num-Male".toList ∨ t = "num-Female".toList ∨ t = "num-Unknown".toList))) ∧
      (∀ c ∈ cols, d.get? (head longNames c) = some (inOrder.map (cell (head longNames c)))) ∧
      (na = true → d.get? "num-Authors".toList = some (inOrder.map (fun p => some (.num (linesOf p "AU").length)))) ∧
      (gc = true → d.get? "num-Male".toList = some (inOrder.map (fun p => some (.num (genders p).1))) ∧
        d.get? "num-Female".toList = some (inOrder.map (fun p => some (.num (genders p).2.1))) ∧
        d.get? "num-Unknown".toList = some (inOrder.map (fun p => some (.num (genders p).2.2)))) := by
  have hnot : ∀ x ∈ ["num-Authors".toList, "num-Male".toList, "num-Female".toList, "num-Unknown".toList], x ∉ cols.map (head longNames) := by
    intro x hx hm
    obtain ⟨c, hc, e⟩ := List.mem_map.1 hm
    obtain ⟨a, b⟩ := not_added c (hcols c hc) x hx
    unfold head at e
    cases longNames
    · exact a e
    · exact b e
  obtain ⟨l, hl⟩ := FileExports.readAll_ok before (names := cols.map (head longNames) ++ (if na then ["authorsShort".toList] else [])) (rs := order (papers.map toRec)) (by
    intro t ht r hr
    rcases List.mem_append.1 ht with ht | ht
    · obtain ⟨c, hc', rfl⟩ := List.mem_map.1 ht
      exact ⟨_, val_value before h hf hint (hc c hc') hr⟩
    · by_cases hn : na = true
      · rw [if_pos hn, List.mem_singleton] at ht
        exact ⟨_, by rw [ht]; exact FileExports.authors_read before h hf hr⟩
      · rw [if_neg hn] at ht; cases ht)
  obtain ⟨d, d1, d2, d3, d4, d5⟩ := Verif.Props.C26_columns_partial extras (Model.TagNames.fullToTag.get? ·) (Model.TagNames.wosTags.get? ·) (dictView W before genders) only
    longNames na gc (order (papers.map toRec)) _ hfe (fun _ => hnot _ (by decide +kernel)) (fun _ => ⟨hnot _ (by decide +kernel), hnot _ (by decide +kernel), hnot _ (by decide +kernel)⟩)
    (by decide +kernel)
  refine ⟨d, (order (papers.map toRec)).map Model.Wos.Rec.fields, ?_, in_order h, fun t => ?_, fun c hc' => ?_, fun hn => ?_, fun hg => ?_⟩
  · unfold frame
    rw [records_eq W order h.nl h.E hf]
    simp only [Option.map_some]
    rw [hfe]
    simp only [Option.getD_some]
    rw [hl, d1]
    rfl
  · rw [d5, List.mem_map]
    exact or_congr ⟨fun ⟨c, h1, h2⟩ => ⟨c, h1, h2.symm⟩, fun ⟨c, h1, h2⟩ => ⟨c, h1, h2.symm⟩⟩ Iff.rfl
  · rw [d2 _ (List.mem_map_of_mem hc'), List.map_map]
    congr 1
    apply List.map_congr_left
    intro r hr
    show (match value W before (String.ofList (head longNames c)) r with | .ok v => v | .error _ => none) = _
    rw [val_value before h hf hint (hc c hc') hr]
    rfl
  · refine (d3 hn).trans ?_
    rw [List.map_map]
    congr 1
    apply List.map_congr_left
    intro r hr
    show (match value W before "authorsShort" r with | .ok (some (.texts l)) => some (FVal.num l.length) | .ok (some (.cites l)) => some (.num l.length) | .ok (some (.text s)) => some (.num s.length) | _ => some (.num 0)) = _
    rw [FileExports.authors_read before h hf hr]
    by_cases hl : linesOf r.fields "AU" = []
    · rw [if_pos hl]
      show _ = some (FVal.num ((linesOf r.fields "AU").length : Int))
      rw [hl]; rfl
    · rw [if_neg hl]; rfl
  · obtain ⟨e1, e2, e3⟩ := d4 hg
    refine ⟨e1.trans ?_, e2.trans ?_, e3.trans ?_⟩ <;> · rw [List.map_map]; rfl

/-- **C127, the dictionary of columns.** `makeDict` with chosen tags, given as tags or long names: one column for each, under its tag or its long name as asked, and as asked the
number of authors and the counts of genders. A column has one entry for each paper of the file, in an order that is the same for all columns: the value the paper has under the tag,
or nothing. -/
theorem C127_frame (h : Setting W order) (hf : FileOk W.ws origin papers) (hint : ∀ n : Nat, W.prims.int (showNat n) = some (n : Int)) (genders : Paper → Nat × Nat × Nat)
    {cols : List (Str × Str)} (hne : cols ≠ []) (hcols : ∀ c ∈ cols, TagTable.Wos c.1 c.2) {only : List Str}
    (honly : List.Forall₂ (fun t c => t = c.1 ∨ t = c.2) only cols) (longNames na gc : Bool) {cell : Str → Paper → Option FVal}
    (hc : ∀ c ∈ cols, Values W.prims papers (String.ofList (head longNames c)) (cell (head longNames c))) :
    ∃ (d : Dict Str (List (Option FVal))) (inOrder : List Paper), frame W before order genders (some only) longNames na gc (fileText origin papers) = some (.ok (some d)) ∧
      inOrder.Perm papers ∧
      (∀ t, t ∈ d.keys ↔ (∃ c ∈ cols, t = head longNames c) ∨ (na ∧ t = "num-Authors".toList) ∨
        (gc ∧ (t = "num-Male".toList ∨ t = "num-Female".toList ∨ t = "num-Unknown".toList))) ∧
      (∀ c ∈ cols, d.get? (head longNames c) = some (inOrder.map (cell (head longNames c)))) ∧
      (na = true → d.get? "num-Authors".toList = some (inOrder.map (fun p => some (.num (linesOf p "AU").length)))) ∧
      (gc = true → d.get? "num-Male".toList = some (inOrder.map (fun p => some (.num (genders p).1))) ∧
        d.get? "num-Female".toList = some (inOrder.map (fun p => some (.num (genders p).2.1))) ∧
        d.get? "num-Unknown".toList = some (inOrder.map (fun p => some (.num (genders p).2.2)))) :=
  frame_cols before h hf hint genders hcols (some only) longNames na gc (fields_eq hne hcols honly longNames _ _) hc

/-- **C127, all columns.** `makeDict` without a choice: one column for every tag that some paper of the file has, under the tag or its long name as asked, and no others but the
added ones. -/
theorem C127_all (h : Setting W order) (hf : FileOk W.ws origin papers) (hint : ∀ n : Nat, W.prims.int (showNat n) = some (n : Int)) (genders : Paper → Nat × Nat × Nat)
    (htags : ∀ p ∈ papers, ∀ f ∈ p, ∃ long, TagTable.Wos f.1 long) (longNames na gc : Bool) {cell : Str → Paper → Option FVal}
    (hc : ∀ c : Str × Str, TagTable.Wos c.1 c.2 → (∃ p ∈ papers, c.1 ∈ p.map Prod.fst) →
      Values W.prims papers (String.ofList (head longNames c)) (cell (head longNames c))) :
    ∃ (d : Dict Str (List (Option FVal))) (inOrder : List Paper), frame W before order genders none longNames na gc (fileText origin papers) = some (.ok (some d)) ∧
      inOrder.Perm papers ∧
      (∀ t, t ∈ d.keys ↔ (∃ c : Str × Str, TagTable.Wos c.1 c.2 ∧ (∃ p ∈ papers, c.1 ∈ p.map Prod.fst) ∧ t = head longNames c) ∨ (na ∧ t = "num-Authors".toList) ∨
        (gc ∧ (t = "num-Male".toList ∨ t = "num-Female".toList ∨ t = "num-Unknown".toList))) ∧
      (∀ c : Str × Str, TagTable.Wos c.1 c.2 → (∃ p ∈ papers, c.1 ∈ p.map Prod.fst) → d.get? (head longNames c) = some (inOrder.map (cell (head longNames c)))) ∧
      (na = true → d.get? "num-Authors".toList = some (inOrder.map (fun p => some (.num (linesOf p "AU").length)))) ∧
      (gc = true → d.get? "num-Male".toList = some (inOrder.map (fun p => some (.num (genders p).1))) ∧
        d.get? "num-Female".toList = some (inOrder.map (fun p => some (.num (genders p).2.1))) ∧
        d.get? "num-Unknown".toList = some (inOrder.map (fun p => some (.num (genders p).2.2)))) := by
  obtain ⟨tags, _, t2, t3, t4, _⟩ := Verif.Props.C26_fields extras (Model.TagNames.fullToTag.get? ·) (Model.TagNames.wosTags.get? ·) (dictView W before genders)
    (fun r => List.nodup_dedup _) none longNames na gc (order (papers.map toRec))
  have hmem : ∀ t, t ∈ tags ↔ ∃ p ∈ papers, t ∈ p.map Prod.fst := by
    intro t
    rw [(t2 (.inl rfl)).2]
    constructor
    · rintro ⟨r, hr, ht⟩
      obtain ⟨_, _, h3⟩ := of_order h hf hr
      exact ⟨r.fields, h3, List.mem_dedup.1 ht⟩
    · rintro ⟨p, hp, ht⟩
      exact ⟨toRec p, (h.perm _).mem_iff.2 (List.mem_map_of_mem hp), List.mem_dedup.2 ht⟩
  let cols : List (Str × Str) := tags.map (fun t => (t, (Model.TagNames.wosTags.get? t).getD []))
  have hget : ∀ t long, TagTable.Wos t long → Model.TagNames.wosTags.get? t = some long := fun t long hw => (FileExports.table (t, long) hw).2.2.1
  have hcol : ∀ c : Str × Str, c ∈ cols ↔ TagTable.Wos c.1 c.2 ∧ ∃ p ∈ papers, c.1 ∈ p.map Prod.fst := by
    intro c
    constructor
    · intro hm
      obtain ⟨t, ht, rfl⟩ := List.mem_map.1 hm
      obtain ⟨p, hp, hf'⟩ := (hmem t).1 ht
      obtain ⟨f, hf1, rfl⟩ := List.mem_map.1 hf'
      obtain ⟨long, hw⟩ := htags p hp f hf1
      refine ⟨?_, p, hp, hf'⟩
      show TagTable.Wos f.1 ((Model.TagNames.wosTags.get? f.1).getD [])
      rw [hget _ _ hw]; exact hw
    · rintro ⟨hw, hp⟩
      refine List.mem_map.2 ⟨c.1, (hmem _).2 hp, ?_⟩
      rw [hget _ _ hw]; rfl
  have hfe : Model.Tables.retrievedFields (Model.TagNames.fullToTag.get? ·) (Model.TagNames.wosTags.get? ·) none longNames (dictView W before genders).keys (order (papers.map toRec)) =
      some (cols.map (head longNames)) := by
    cases longNames with
    | false =>
      rw [t3 rfl, List.map_map]
      exact congrArg some (List.map_id tags).symm
    | true =>
      refine (t4 rfl _).2 ?_
      rw [List.map_map, List.map_map]
      apply List.map_congr_left
      intro t ht
      obtain ⟨p, hp, hf'⟩ := (hmem t).1 ht
      obtain ⟨f, hf1, rfl⟩ := List.mem_map.1 hf'
      obtain ⟨long, hw⟩ := htags p hp f hf1
      show Model.TagNames.wosTags.get? f.1 = some ((Model.TagNames.wosTags.get? f.1).getD [])
      rw [hget _ _ hw]; rfl
  obtain ⟨d, l, d1, d2, d3, d4, d5, d6⟩ := frame_cols before h hf hint genders (fun c hc' => ((hcol c).1 hc').1) none longNames na gc hfe
    (fun c hc' => hc c ((hcol c).1 hc').1 ((hcol c).1 hc').2)
  refine ⟨d, l, d1, d2, fun t => (d3 t).trans (or_congr ?_ Iff.rfl), fun c hw hp => d4 c ((hcol c).2 ⟨hw, hp⟩), d5, d6⟩
  exact ⟨fun ⟨c, x, y⟩ => ⟨c, ((hcol c).1 x).1, ((hcol c).1 x).2, y⟩, fun ⟨c, x, y, z⟩ => ⟨c, (hcol c).2 ⟨x, y⟩, z⟩⟩

/-! ## forNLP -/

theorem title_value (h : Setting W order) (hf : FileOk W.ws origin papers) {r : Model.Wos.Rec} (hr : r ∈ order (papers.map toRec)) :
    ∃ v, value W before "title" r = .ok v ∧ v.getD (.text []) = .text (textOf r.fields "TI") := by
  obtain ⟨h1, h2, h3⟩ := of_order h hf hr
  have hv := value_eq W before h1 "TI" "title" "title" (by unfold Spec.TagTable.Wos; decide +kernel) (.inr rfl)
  rw [← h2, WosFields.C69_text W.prims _ (List.mem_map_of_mem (by decide)) _] at hv
  by_cases hl : linesOf r.fields "TI" = []
  · rw [if_pos hl] at hv
    exact ⟨_, hv, by unfold textOf; rw [hl]; rfl⟩
  · rw [if_neg hl] at hv
    exact ⟨_, hv, rfl⟩

theorem abstract_value (h : Setting W order) (hf : FileOk W.ws origin papers) {r : Model.Wos.Rec} (hr : r ∈ order (papers.map toRec)) :
    ∃ v, value W before "AB" r = .ok v ∧ (match v with | some (.text s) => s | _ => []) = ['\n'].intercalate (linesOf r.fields "AB") := by
  obtain ⟨h1, h2, h3⟩ := of_order h hf hr
  have hv := value_eq W before h1 "AB" "abstract" "AB" (by unfold Spec.TagTable.Wos; decide +kernel) (.inl rfl)
  rw [← h2, (WosFields.C69_abstract W.prims _).1] at hv
  by_cases hl : linesOf r.fields "AB" = []
  · rw [if_pos hl] at hv
    exact ⟨_, hv, by rw [hl]; rfl⟩
  · rw [if_neg hl] at hv
    exact ⟨_, hv, rfl⟩

theorem keywords_value (h : Setting W order) (hf : FileOk W.ws origin papers) {r : Model.Wos.Rec} (hr : r ∈ order (papers.map toRec)) {items : List Str}
    (hk : Keywords W.prims.upper r.fields items) :
    ∃ v, value W before "keywords" r = .ok v ∧ (match v with | some (.texts l) => l | _ => []) = items := by
  obtain ⟨h1, h2, h3⟩ := of_order h hf hr
  have hv := value_eq W before h1 "ID" "keywords" "keywords" (by unfold Spec.TagTable.Wos; decide +kernel) (.inr rfl)
  rw [← h2] at hv
  rcases hk with ⟨hl, rfl⟩ | ⟨hl, k1, k2, k3⟩
  · rw [if_pos hl] at hv
    exact ⟨_, hv, rfl⟩
  · rw [if_neg hl, (WosFields.C69_keywords W.prims items _ k1 k3).2 k2] at hv
    exact ⟨_, hv, rfl⟩

theorem mem_extraList {extra : List String} (hn : extra.Nodup) (c : Str) : c ∈ Model.Tables.extraList (some (extra.map String.toList)) ↔
    ∃ k ∈ extra, c = k.toList ∧ k ∉ ["id", "year", "title", "keywords", "abstract"] := by
  have hn' : (extra.map String.toList).Nodup := hn.map (fun a b e => String.toList_inj.1 e)
  have hb : ∀ k : String, k.toList ∈ Model.Tables.builtins ↔ k ∈ ["id", "year", "title", "keywords", "abstract"] := by
    intro k
    have : Model.Tables.builtins = ["id", "year", "title", "keywords", "abstract"].map String.toList := rfl
    rw [this, List.mem_map]
    exact ⟨fun ⟨x, h1, h2⟩ => by rw [← String.toList_inj.1 h2]; exact h1, fun h => ⟨k, h, rfl⟩⟩
  rw [Verif.Props.extraList_nodup _ hn', List.mem_filter, decide_eq_true_eq, List.mem_map]
  constructor
  · rintro ⟨⟨k, h1, rfl⟩, h2⟩
    exact ⟨k, h1, rfl, fun h => h2 ((hb k).2 h)⟩
  · rintro ⟨k, h1, rfl, h2⟩
    exact ⟨⟨k, h1, rfl⟩, fun h => h2 ((hb k).1 h)⟩

/-- What is read of a paper, whatever the options. -/
theorem table (h : Setting W order) (hf : FileOk W.ws origin papers) (hint : ∀ n : Nat, W.prims.int (showNat n) = some (n : Int)) (hy : YearsOk papers)
    {kw : Paper → List Str} (hkw : ∀ p ∈ papers, Keywords W.prims.upper p (kw p)) (ch : Model.Tables.Chars) (o : Model.Tables.NlpOpts) {extra : List String} (hn : extra.Nodup)
    (hcp : o.copyright = true → "copyright" ∉ extra) {cell : String → Paper → Option FVal}
    (hc : ∀ c ∈ extra, c ∉ ["id", "year", "title", "keywords", "abstract"] → Values W.prims papers c (cell c)) :
    ∃ (d : Dict Str (List FVal)) (inOrder : List Paper), nlp W before order ch o (some (extra.map String.toList)) (fileText origin papers) = some (.ok (some d)) ∧
      inOrder.Perm papers ∧
      (∀ c : String, c.toList ∈ d.keys ↔ c ∈ ["id", "year", "title", "keywords", "abstract"] ∨ (c = "copyright" ∧ o.copyright = true) ∨ c ∈ extra) ∧
      d.get? "id".toList = some (inOrder.map (fun p => .text ((linesOf p "UT").headD []))) ∧
      d.get? "year".toList = some (inOrder.map (fun p => (yr p).elim (.text []) (fun y => .num y))) ∧
      d.get? "title".toList = some (inOrder.map (fun p => .text (textOf p "TI"))) ∧
      d.get? "keywords".toList = some (inOrder.map (fun p => .text (['|'].intercalate (kw p)))) ∧
      d.get? "abstract".toList = some (inOrder.map (fun p => .text (Model.Tables.abPrep ch o (['\n'].intercalate (linesOf p "AB"))).1)) ∧
      (o.copyright = true → d.get? "copyright".toList = some (inOrder.map (fun p => .text (Model.Tables.abPrep ch o (['\n'].intercalate (linesOf p "AB"))).2))) ∧
      ∀ c ∈ extra, c ∉ ["id", "year", "title", "keywords", "abstract"] → d.get? c.toList = some (inOrder.map (fun p => oneCell (cell c p))) := by
  have hex : ∀ c ∈ Model.Tables.extraList (some (extra.map String.toList)), ∃ k ∈ extra, c = k.toList ∧ k ∉ ["id", "year", "title", "keywords", "abstract"] := fun c hc' => (mem_extraList hn c).1 hc'
  have hval : ∀ r ∈ order (papers.map toRec), ∃ R, nlpRead W before (Model.Tables.extraList (some (extra.map String.toList))) r = .ok R ∧
      R.id = r.id ∧ nlpView.year R = (yr r.fields).elim (.text []) (fun y => .num y) ∧ nlpView.title R = .text (textOf r.fields "TI") ∧
      nlpView.keywords R = kw r.fields ∧ nlpView.abstract R = ['\n'].intercalate (linesOf r.fields "AB") ∧
      R.extra = (Model.Tables.extraList (some (extra.map String.toList))).map (fun c => (c, cell (String.ofList c) r.fields)) := by
    intro r hr
    obtain ⟨_, _, h3⟩ := of_order h hf hr
    obtain ⟨a, a1, a2⟩ := abstract_value before h hf hr
    obtain ⟨t, t1, t2⟩ := title_value before h hf hr
    obtain ⟨k, k1, k2⟩ := keywords_value before h hf hr (hkw _ h3)
    have he : (Model.Tables.extraList (some (extra.map String.toList))).mapM (fun c => do return (c, ← value W before (String.ofList c) r)) =
        (.ok ((Model.Tables.extraList (some (extra.map String.toList))).map (fun c => (c, cell (String.ofList c) r.fields))) : Except AErr _) := by
      apply Lemmas.Pipeline.mapM_ok
      intro c hc'
      obtain ⟨k, m1, rfl, m2⟩ := hex c hc'
      rw [String.ofList_toList, val_value before h hf hint (hc k m1 m2) hr]
      rfl
    refine ⟨⟨r.id, a, (yr r.fields).map (fun y : Nat => FVal.num (y : Int)), t, k, _⟩, ?_, rfl, ?_, t2, k2, a2, rfl⟩
    · unfold nlpRead
      rw [a1, year_value before h hf hint hy hr, t1, k1]
      show ((Model.Tables.extraList (some (extra.map String.toList))).mapM (fun c => do return (c, ← value W before (String.ofList c) r))).bind _ = _
      rw [he]
      rfl
    · show ((yr r.fields).map (fun y : Nat => FVal.num (y : Int))).getD (.text []) = _
      cases yr r.fields <;> rfl
  have hread : ∃ Rs : List NlpRead, (order (papers.map toRec)).mapM (nlpRead W before (Model.Tables.extraList (some (extra.map String.toList)))) = .ok Rs ∧
      List.Forall₂ (fun (r : Model.Wos.Rec) (R : NlpRead) => r ∈ order (papers.map toRec) ∧ R.id = r.id ∧ nlpView.year R = (yr r.fields).elim (.text []) (fun y => .num y) ∧ nlpView.title R = .text (textOf r.fields "TI") ∧
        nlpView.keywords R = kw r.fields ∧ nlpView.abstract R = ['\n'].intercalate (linesOf r.fields "AB") ∧
        R.extra = (Model.Tables.extraList (some (extra.map String.toList))).map (fun c => (c, cell (String.ofList c) r.fields))) (order (papers.map toRec)) Rs := by
    have : ∀ l : List Model.Wos.Rec, (∀ r ∈ l, r ∈ order (papers.map toRec)) → ∃ Rs : List NlpRead, l.mapM (nlpRead W before (Model.Tables.extraList (some (extra.map String.toList)))) = .ok Rs ∧
      List.Forall₂ (fun (r : Model.Wos.Rec) (R : NlpRead) => r ∈ order (papers.map toRec) ∧ R.id = r.id ∧ nlpView.year R = (yr r.fields).elim (.text []) (fun y => .num y) ∧ nlpView.title R = .text (textOf r.fields "TI") ∧
        nlpView.keywords R = kw r.fields ∧ nlpView.abstract R = ['\n'].intercalate (linesOf r.fields "AB") ∧
        R.extra = (Model.Tables.extraList (some (extra.map String.toList))).map (fun c => (c, cell (String.ofList c) r.fields))) l Rs := by
      intro l
      induction l with
      | nil => intro _; exact ⟨[], rfl, .nil⟩
      | cons r l ih =>
        intro hl
        obtain ⟨R, e1, e2⟩ := hval r (hl r (by simp))
        obtain ⟨Rs, e3, e4⟩ := ih (fun r hr => hl r (List.mem_cons_of_mem _ hr))
        exact ⟨R :: Rs, by rw [List.mapM_cons, e1, e3]; rfl, .cons ⟨hl r (by simp), e2⟩ e4⟩
    exact this _ (fun _ h => h)
  obtain ⟨Rs, hR, hall⟩ := hread
  have hcol : ∀ (f : NlpRead → FVal) (g : Paper → FVal), (∀ r R, r ∈ order (papers.map toRec) → R.id = r.id → nlpView.year R = (yr r.fields).elim (.text []) (fun y => .num y) →
      nlpView.title R = .text (textOf r.fields "TI") → nlpView.keywords R = kw r.fields → nlpView.abstract R = ['\n'].intercalate (linesOf r.fields "AB") →
      R.extra = (Model.Tables.extraList (some (extra.map String.toList))).map (fun c => (c, cell (String.ofList c) r.fields)) → f R = g r.fields) →
      Rs.map f = ((order (papers.map toRec)).map Model.Wos.Rec.fields).map g := by
    intro f g hfg
    rw [List.map_map]
    generalize order (papers.map toRec) = l at hall hfg
    have : ∀ (l' : List Model.Wos.Rec) (Rs : List NlpRead), List.Forall₂ (fun (r : Model.Wos.Rec) (R : NlpRead) => r ∈ l ∧ R.id = r.id ∧ nlpView.year R = (yr r.fields).elim (.text []) (fun y => .num y) ∧ nlpView.title R = .text (textOf r.fields "TI") ∧
        nlpView.keywords R = kw r.fields ∧ nlpView.abstract R = ['\n'].intercalate (linesOf r.fields "AB") ∧
        R.extra = (Model.Tables.extraList (some (extra.map String.toList))).map (fun c => (c, cell (String.ofList c) r.fields))) l' Rs → Rs.map f = l'.map (g ∘ Model.Wos.Rec.fields) := by
      intro l' Rs hx
      induction hx with
      | nil => rfl
      | cons hd _ ih =>
        obtain ⟨x1, x2, x3, x4, x5, x6, x7⟩ := hd
        rw [List.map_cons, List.map_cons, ih, hfg _ _ x1 x2 x3 x4 x5 x6 x7]
        rfl
    exact this l Rs hall
  obtain ⟨d, d1, d2, d3⟩ := Verif.Props.C27_columns_partial ch o nlpView extra hn hcp Rs
  refine ⟨d, (order (papers.map toRec)).map Model.Wos.Rec.fields, ?_, in_order h, d2, ?_, ?_, ?_, ?_, ?_, ?_, ?_⟩
  · unfold nlp
    rw [records_eq W order h.nl h.E hf]
    simp only [Option.map_some]
    rw [hR]
    show some (Except.ok (Model.Tables.forNLP ch o nlpView (some (extra.map String.toList)) Rs)) = _
    rw [d1]
  · rw [d3 "id" ((d2 _).2 (.inl (by decide)))]
    refine congrArg some (hcol _ _ (fun r R h0 h1 _ _ _ _ _ => ?_))
    show FVal.text R.id = _
    rw [h1, (of_order h hf h0).2.1]; rfl
  · rw [d3 "year" ((d2 _).2 (.inl (by decide)))]
    exact congrArg some (hcol _ _ (fun r R _ _ h2 _ _ _ _ => h2))
  · rw [d3 "title" ((d2 _).2 (.inl (by decide)))]
    exact congrArg some (hcol _ _ (fun r R _ _ _ h3 _ _ _ => h3))
  · rw [d3 "keywords" ((d2 _).2 (.inl (by decide)))]
    refine congrArg some (hcol _ _ (fun r R _ _ _ _ h4 _ _ => ?_))
    show FVal.text (Str.join ['|'] (nlpView.keywords R)) = _
    rw [h4, WosFields.join_eq]
  · rw [d3 "abstract" ((d2 _).2 (.inl (by decide)))]
    refine congrArg some (hcol _ _ (fun r R _ _ _ _ _ h5 _ => ?_))
    show FVal.text (Model.Tables.abPrep ch o (nlpView.abstract R)).1 = _
    rw [h5]
  · intro hco
    rw [d3 "copyright" ((d2 _).2 (.inr (.inl ⟨rfl, hco⟩)))]
    refine congrArg some (hcol _ _ (fun r R _ _ _ _ _ h5 _ => ?_))
    unfold Verif.Props.nlpCell
    rw [if_neg (by decide), if_neg (by decide), if_neg (by decide), if_neg (by decide), if_neg (by decide), if_pos ⟨rfl, hco⟩, h5]
    rfl
  · intro c hce hcb
    rw [d3 c ((d2 _).2 (.inr (.inr hce)))]
    refine congrArg some (hcol _ _ (fun r R _ _ _ _ _ _ h6 => ?_))
    have hcb' : ∀ x ∈ ["id", "year", "title", "keywords", "abstract"], c ≠ x := fun x hx e => hcb (e ▸ hx)
    unfold Verif.Props.nlpCell
    rw [if_neg (hcb' _ (by decide)), if_neg (hcb' _ (by decide)), if_neg (hcb' _ (by decide)), if_neg (hcb' _ (by decide)), if_neg (hcb' _ (by decide)),
      if_neg (fun e : c = "copyright" ∧ o.copyright = true => hcp e.2 (e.1 ▸ hce))]
    have hget : Dict.get? R.extra c.toList = some (cell c r.fields) := by
      rw [h6]
      have hm : c.toList ∈ Model.Tables.extraList (some (extra.map String.toList)) := (mem_extraList hn _).2 ⟨c, hce, rfl, hcb⟩
      generalize Model.Tables.extraList (some (extra.map String.toList)) = l at hm
      clear h6
      induction l with
      | nil => cases hm
      | cons x l ih =>
        rw [List.map_cons]
        unfold Dict.get?
        by_cases e : x = c.toList
        · rw [if_pos e, e, String.ofList_toList]
        · rw [if_neg e]
          exact ih ((List.mem_cons.1 hm).resolve_left (fun e' => e e'.symm))
    have hview : nlpView.extra R c.toList = (match Dict.get? R.extra c.toList with
      | some (some (.texts l)) => .list l
      | some (some (.cites l)) => .list l
      | some (some v) => .val v
      | _ => .missing) := rfl
    rw [hview, hget]
    cases hcell : cell c r.fields with
    | none => rfl
    | some v =>
      cases v with
      | text s => rfl
      | texts l => exact congrArg _ (WosFields.join_eq _ _)
      | cites l => exact congrArg _ (WosFields.join_eq _ _)
      | num n => rfl

/-- **C127, the table for language processing.** One row for each paper of the file, in an order that is the same for all columns: its accession number, its year as a number (the
empty text without one), its title, its keywords with bars between them, the words of its abstract with single spaces between them, each lowered, rid of characters and stemmed as the
options say, and what it has in the extra columns; lists with bars, nothing as the empty text. -/
theorem C127_nlp (h : Setting W order) (hf : FileOk W.ws origin papers) (hint : ∀ n : Nat, W.prims.int (showNat n) = some (n : Int)) (hy : YearsOk papers)
    {years : Paper → Option Nat} (hyears : ∀ p ∈ papers, ∀ y, years p = some y ↔ OfYear p y) {kw : Paper → List Str} (hkw : ∀ p ∈ papers, Keywords W.prims.upper p (kw p))
    (ch : Model.Tables.Chars) (hsp : ch.space ' ' = true) (hlow : Words.WordByWord ch.lower) (lo n nw : Bool) (st : Option (Str → Str)) {words : Paper → List Str}
    (hwords : ∀ p ∈ papers, Spec.Words.Words ch.space (['\n'].intercalate (linesOf p "AB")) (words p)) {extra : List String} (hn : extra.Nodup)
    {cell : String → Paper → Option FVal} (hc : ∀ c ∈ extra, c ∉ ["id", "year", "title", "keywords", "abstract"] → Values W.prims papers c (cell c)) :
    ∃ (d : Dict Str (List FVal)) (inOrder : List Paper),
      nlp W before order ch ⟨none, lo, n, nw, true, false, st⟩ (some (extra.map String.toList)) (fileText origin papers) = some (.ok (some d)) ∧ inOrder.Perm papers ∧
      (∀ c : String, c.toList ∈ d.keys ↔ c ∈ ["id", "year", "title", "keywords", "abstract"] ∨ c ∈ extra) ∧
      d.get? "id".toList = some (inOrder.map (fun p => .text ((linesOf p "UT").headD []))) ∧
      d.get? "year".toList = some (inOrder.map (fun p => (years p).elim (.text []) (fun y => .num y))) ∧
      d.get? "title".toList = some (inOrder.map (fun p => .text (textOf p "TI"))) ∧
      d.get? "keywords".toList = some (inOrder.map (fun p => .text (['|'].intercalate (kw p)))) ∧
      d.get? "abstract".toList = some (inOrder.map (fun p => .text (Spec.Words.spaced ((words p).map (fun w =>
        st.elim id id (Spec.Words.cleaned ch.digit ch.word n nw (if lo then ch.lower w else w))))))) ∧
      ∀ c ∈ extra, c ∉ ["id", "year", "title", "keywords", "abstract"] → d.get? c.toList = some (inOrder.map (fun p => oneCell (cell c p))) := by
  obtain ⟨d, l, h1, h2, h3, h4, h5, h6, h7, h8, _, h10⟩ := table before h hf hint hy hkw ch ⟨none, lo, n, nw, true, false, st⟩ hn (fun e => by cases e) hc
  refine ⟨d, l, h1, h2, fun c => ?_, h4, h5.trans ?_, h6, h7, h8.trans ?_, h10⟩
  · rw [h3]
    constructor
    · rintro (e | e | e)
      · exact .inl e
      · cases e.2
      · exact .inr e
    · rintro (e | e)
      · exact .inl e
      · exact .inr (.inr e)
  · congr 1
    apply List.map_congr_left
    intro p hp
    have : yr p = years p := by
      cases hx : years p with
      | some y => exact yr_iff.2 ((hyears p (h2.mem_iff.1 hp) y).1 hx)
      | none =>
        cases hz : yr p with
        | none => rfl
        | some y => rw [(hyears p (h2.mem_iff.1 hp) y).2 (yr_iff.1 hz)] at hx; cases hx
    rw [this]
  · congr 1
    apply List.map_congr_left
    intro p hp
    rw [Words.C27_abstract_words ch hsp hlow lo n nw st _ _ (hwords p (h2.mem_iff.1 hp))]

/-- **C127, copyright statements.** With `removeCopyright`, and white space removed, the statement is the copyright statement of the abstract written with single spaces, and empty
when it has none; what is left of the abstract followed by the statement is the abstract, up to white space at the end. -/
theorem C127_copyright (h : Setting W order) (hf : FileOk W.ws origin papers) (hint : ∀ n : Nat, W.prims.int (showNat n) = some (n : Int)) (hy : YearsOk papers)
    {kw : Paper → List Str} (hkw : ∀ p ∈ papers, Keywords W.prims.upper p (kw p)) (ch : Model.Tables.Chars) (hdig : ch.digit ' ' = false) {words : Paper → List Str}
    (hwords : ∀ p ∈ papers, Spec.Words.Words ch.space (['\n'].intercalate (linesOf p "AB")) (words p)) :
    ∃ (d : Dict Str (List FVal)) (inOrder : List Paper) (left right : Paper → Str),
      nlp W before order ch ⟨none, false, false, false, true, true, none⟩ (some []) (fileText origin papers) = some (.ok (some d)) ∧ inOrder.Perm papers ∧
      d.get? "id".toList = some (inOrder.map (fun p => .text ((linesOf p "UT").headD []))) ∧
      d.get? "abstract".toList = some (inOrder.map (fun p => .text (left p))) ∧ d.get? "copyright".toList = some (inOrder.map (fun p => .text (right p))) ∧
      ∀ p ∈ papers, (∃ tail, left p ++ right p ++ tail = Spec.Words.spaced (words p) ∧ ∀ c ∈ tail, ch.space c) ∧
        ∀ c, (c ≠ [] ∧ right p = c) ↔ Spec.Copyright.Statement ch.space ch.digit (Spec.Words.spaced (words p)) c := by
  obtain ⟨d, l, h1, h2, _, h4, _, _, _, h8, h9, _⟩ := table before h hf hint hy hkw ch ⟨none, false, false, false, true, true, none⟩ (extra := []) List.nodup_nil (fun _ => by simp)
    (cell := fun _ _ => none) (fun c hc' => by cases hc')
  have hab : ∀ p ∈ papers, Model.Tables.abPrep ch ⟨none, false, false, false, true, true, none⟩ (['\n'].intercalate (linesOf p "AB")) =
      Model.Tables.findCopyright ch.space ch.digit (Spec.Words.spaced (words p)) := by
    intro p hp
    have hdrop : ∀ s, Model.Tables.dropOther ch false false s = s := by
      intro s
      unfold Model.Tables.dropOther
      exact List.filter_eq_self.2 (fun a _ => by simp)
    unfold Model.Tables.abPrep
    simp only [if_true, Bool.false_eq_true, if_false, Words.collapse_words _ _ _ (hwords p hp), hdrop]
  refine ⟨d, l, fun p => (Model.Tables.findCopyright ch.space ch.digit (Spec.Words.spaced (words p))).1, fun p => (Model.Tables.findCopyright ch.space ch.digit (Spec.Words.spaced (words p))).2,
    h1, h2, h4, h8.trans ?_, (h9 rfl).trans ?_, fun p hp => ⟨(Verif.Props.C27_copyright_lossless ch.space ch.digit _).1, fun c => Verif.Props.C27_copyright_statement ch.space ch.digit hdig _ c⟩⟩
  · congr 1
    apply List.map_congr_left
    intro p hp
    rw [hab p (h2.mem_iff.1 hp)]
  · congr 1
    apply List.map_congr_left
    intro p hp
    rw [hab p (h2.mem_iff.1 hp)]

end
/-! ## A file -/

/-- A paper with everything, one with only a title. -/
def file : List Paper :=
  [[("PT".toList, ["J".toList]), ("AU".toList, ["Lovelace, A".toList, "Byron, B".toList]), ("TI".toList, ["On".toList, "engines".toList]),
    ("ID".toList, ["Engines; Punched".toList, "cards".toList]), ("AB".toList, ["We weave.".toList, "(C) 2001 Elsevier".toList]), ("PY".toList, ["2001".toList]), ("UT".toList, ["WOS:1".toList])],
   [("PT".toList, ["J".toList]), ("TI".toList, ["Notes".toList]), ("UT".toList, ["WOS:2".toList])]]

theorem file_ok : FileOk w.ws "FN Clarivate".toList file where
  each := by
    intro p hp
    simp only [file, List.mem_cons, List.not_mem_nil, or_false] at hp
    rcases hp with rfl | rfl <;>
    exact {
      fields := ⟨by
        intro f hf
        have : ∀ f ∈ file.flatten, f.1.length = 2 ∧ f.1 ≠ "ER".toList ∧ f.1 ≠ "  ".toList ∧ f.2 ≠ [] ∧ '\n' ∉ f.1 ∧ ∀ v ∈ f.2, '\n' ∉ v := by decide +kernel
        obtain ⟨a, b, c, d, e, g⟩ := this f (List.mem_flatten.2 ⟨_, by simp [file], hf⟩)
        exact ⟨a, b, c, d, e, g⟩, by decide +kernel⟩
      noCR := by decide +kernel
      ut := by decide +kernel
      noJ9 := by decide +kernel
      first := by
        intro f hf
        obtain rfl := Option.some.inj hf
        exact ⟨by decide, 'P', by decide, by decide⟩ }
  different := by decide +kernel
  origin := by decide +kernel

def yearIn (p : Paper) : Option Nat := if linesOf p "PY" = [] then none else some 2001

theorem year_in : ∀ p ∈ file, ∀ y, yearIn p = some y ↔ OfYear p y := by
  intro p hp y
  have hs : ∀ a b : Nat, showNat a = showNat b → a = b := fun a b e => by
    have h1 := Derived.int_ok a
    rw [e, Derived.int_ok b] at h1
    have := Option.some.inj h1
    omega
  simp only [file, List.mem_cons, List.not_mem_nil, or_false] at hp
  unfold OfYear
  rcases hp with rfl | rfl
  · constructor
    · intro e
      obtain rfl : 2001 = y := Option.some.inj e
      exact ⟨by decide, by decide, by decide +kernel⟩
    · rintro ⟨_, _, e⟩
      have : some (showNat 2001) = some (showNat y) := e
      rw [← hs _ _ (Option.some.inj this)]
      decide +kernel
  · constructor
    · intro e; cases e
    · rintro ⟨_, _, e⟩; cases e

theorem years_in : YearsOk file := by
  intro p hp
  by_cases e : linesOf p "PY" = []
  · exact .inl e
  · exact .inr ⟨2001, (year_in p hp 2001).1 (by unfold yearIn; rw [if_neg e])⟩

def kwIn (p : Paper) : List Str := if linesOf p "ID" = [] then [] else ["ENGINES".toList, "PUNCHED CARDS".toList]

theorem kw_in : ∀ p ∈ file, Keywords w.prims.upper p (kwIn p) := by unfold Keywords; decide +kernel

def wordsIn (p : Paper) : List Str := if linesOf p "AB" = [] then [[]] else ["We".toList, "weave.".toList, "(C)".toList, "2001".toList, "Elsevier".toList]

def chars : Model.Tables.Chars := ⟨fun c => c == ' ' || c == '\n', Char.isAlphanum, Char.isDigit, fun s => s.map Char.toLower⟩

theorem lower_ok : Words.WordByWord chars.lower := by
  have key : ∀ c : Char, c.toLower = ' ' → c = ' ' := by
    intro c h
    unfold Char.toLower at h
    split at h
    · rename_i hc
      have hv := congrArg Char.toNat h
      rw [← Char.toNat_val] at hv
      have : (c.val + ('a'.val - 'A'.val)).toNat = 32 := by simpa using hv
      have h1 := hc.1
      have h2 := hc.2
      exfalso
      rw [ge_iff_le, UInt32.le_iff_toNat_le] at h1
      rw [UInt32.le_iff_toNat_le] at h2
      rw [UInt32.toNat_add] at this
      have e1 : ('A'.val).toNat = 65 := rfl
      have e2 : ('Z'.val).toNat = 90 := rfl
      have e3 : ('a'.val - 'A'.val).toNat = 32 := rfl
      rw [e1] at h1; rw [e2] at h2; rw [e3] at this
      omega
    · exact h
  refine ⟨fun a b => by simp [chars], fun a h hm => ?_⟩
  obtain ⟨c, hc, e⟩ := List.mem_map.1 hm
  exact h (key c e ▸ hc)

theorem words_in : ∀ p ∈ file, Spec.Words.Words chars.space (['\n'].intercalate (linesOf p "AB")) (wordsIn p) := by
  intro p hp
  simp only [file, List.mem_cons, List.not_mem_nil, or_false] at hp
  rcases hp with rfl | rfl
  · exact .more "We".toList [' '] "weave.\n(C) 2001 Elsevier".toList _ _ (by decide) (by decide) (by decide) (.inl (by decide))
      (.more "weave.".toList ['\n'] "(C) 2001 Elsevier".toList _ _ (by decide) (by decide) (by decide) (.inl (by decide))
        (.more "(C)".toList [' '] "2001 Elsevier".toList _ _ (by decide) (by decide) (by decide) (.inl (by decide))
          (.more "2001".toList [' '] "Elsevier".toList _ _ (by decide) (by decide) (by decide) (.inl (by decide)) (.last _ (by decide)))))
  · exact .last [] (by decide)

theorem authors_in : Values w.prims file "authorsShort" (fun p => if linesOf p "AU" = [] then none else some (.texts (linesOf p "AU"))) := by
  refine ⟨"AU", "authorsShort", by unfold TagTable.Wos; decide +kernel, .inr rfl, fun p _ => ⟨?_, fun v hv => ?_⟩⟩
  · by_cases e : linesOf p "AU" = []
    · rw [if_pos e]; exact ⟨fun _ => e, fun _ => rfl⟩
    · rw [if_neg e]; exact ⟨fun h => (by cases h), fun h => absurd h e⟩
  · by_cases e : linesOf p "AU" = []
    · rw [if_pos e] at hv; cases hv
    · rw [if_neg e] at hv
      rw [← Option.some.inj hv]
      exact .names _ _ (by decide)

/-- The keywords are in upper case, and the abstract is broken into words anew. -/
example : ∃ (d : Dict Str (List FVal)) (l : List FVal), nlp w (fun _ => [.item "AB"]) List.reverse chars ⟨none, true, true, true, true, false, none⟩ (some ["authorsShort".toList])
      (fileText "FN Clarivate".toList file) = some (.ok (some d)) ∧
    d.get? "abstract".toList = some l ∧ FVal.text "we weave c  elsevier".toList ∈ l ∧
    (∃ l, d.get? "keywords".toList = some l ∧ FVal.text "ENGINES|PUNCHED CARDS".toList ∈ l) ∧
    ∃ l, d.get? "authorsShort".toList = some l ∧ l.Perm [FVal.text "Lovelace, A|Byron, B".toList, FVal.text []] := by
  obtain ⟨d, l, h1, h2, _, _, _, _, h7, h8, h9⟩ := C127_nlp (fun _ => [.item "AB"]) setting file_ok Derived.int_ok years_in year_in kw_in chars rfl
    lower_ok true true true none words_in (extra := ["authorsShort"]) (by decide)
    (cell := fun _ p => if linesOf p "AU" = [] then none else some (.texts (linesOf p "AU")))
    (fun c hc _ => by rw [List.mem_singleton.1 hc]; exact authors_in)
  refine ⟨d, _, h1, h8, ?_, ⟨_, h7, ?_⟩, _, h9 "authorsShort" (by decide) (by decide), ?_⟩
  · exact List.mem_map.2 ⟨file[0], h2.mem_iff.2 (List.getElem_mem _), by decide +kernel⟩
  · exact List.mem_map.2 ⟨file[0], h2.mem_iff.2 (List.getElem_mem _), by decide +kernel⟩
  · exact (h2.map _).trans (by rw [show file.map (fun p => oneCell (if linesOf p "AU" = [] then none else some (.texts (linesOf p "AU")))) =
      [FVal.text "Lovelace, A|Byron, B".toList, FVal.text []] by decide +kernel])

/-- The statement of the first paper is found although the file breaks the line before it. -/
example : ∃ (d : Dict Str (List FVal)) (l : List FVal), nlp w (fun _ => []) List.reverse chars ⟨none, false, false, false, true, true, none⟩ (some [])
      (fileText "FN Clarivate".toList file) = some (.ok (some d)) ∧
    d.get? "copyright".toList = some l ∧ FVal.text " (C) 2001 Elsevier".toList ∈ l := by
  obtain ⟨d, l, left, right, h1, h2, _, _, h5, h6⟩ := C127_copyright (fun _ => []) setting file_ok Derived.int_ok years_in kw_in chars rfl words_in
  refine ⟨d, _, h1, h5, List.mem_map.2 ⟨file[0], h2.mem_iff.2 (List.getElem_mem _), ?_⟩⟩
  have := ((h6 file[0] (List.getElem_mem _)).2 " (C) 2001 Elsevier".toList).2 ⟨". (C) ".toList, "2001 Elsevier".toList,
    .phrase [". &COPY; ", ". Crown Copyright", " Elsevier Ltd. ", ". Copyright", ". Published by Els", ". (c) "] ". (C) " [] rfl (by decide +kernel) (by decide +kernel),
    by decide +kernel, by decide +kernel⟩
  rw [this.2]

/-- The columns under long names, with the number of authors. -/
example : ∃ (d : Dict Str (List (Option FVal))) (l : List (Option FVal)),
    frame w (fun _ => []) List.reverse (fun _ => (0, 0, 0)) (some ["AU".toList]) true true true (fileText "FN Clarivate".toList file) = some (.ok (some d)) ∧
    d.get? "authorsShort".toList = some l ∧ l.Perm [some (.texts ["Lovelace, A".toList, "Byron, B".toList]), none] ∧ "AU".toList ∉ d.keys ∧
    ∃ l, d.get? "num-Authors".toList = some l ∧ l.Perm [some (.num 2), some (.num 0)] := by
  obtain ⟨d, l, h1, h2, h3, h4, h5, _⟩ := C127_frame (fun _ => []) setting file_ok Derived.int_ok (fun _ => (0, 0, 0)) (cols := [("AU".toList, "authorsShort".toList)]) (by decide)
    (by unfold TagTable.Wos; decide +kernel) (only := ["AU".toList]) (.cons (.inl rfl) .nil) true true true
    (cell := fun _ p => if linesOf p "AU" = [] then none else some (.texts (linesOf p "AU")))
    (fun c hc => by rw [List.mem_singleton.1 hc]; exact authors_in)
  refine ⟨d, _, h1, h4 _ (List.mem_singleton.2 rfl), (h2.map _).trans ?_, ?_, _, h5 rfl, (h2.map _).trans ?_⟩
  · rw [show file.map (fun p => if linesOf p "AU" = [] then none else some (FVal.texts (linesOf p "AU"))) =
      [some (.texts ["Lovelace, A".toList, "Byron, B".toList]), none] by decide +kernel]
  · rw [h3]
    decide +kernel
  · rw [show file.map (fun p => some (FVal.num ((linesOf p "AU").length : Int))) = [some (.num 2), some (.num 0)] by decide +kernel]

def small : List Paper :=
  [[("PT".toList, ["J".toList]), ("AU".toList, ["Lovelace, A".toList, "Byron, B".toList]), ("UT".toList, ["WOS:1".toList])],
   [("PT".toList, ["B".toList]), ("UT".toList, ["WOS:2".toList])]]

theorem small_ok : FileOk w.ws "FN Clarivate".toList small where
  each := by
    intro p hp
    simp only [small, List.mem_cons, List.not_mem_nil, or_false] at hp
    rcases hp with rfl | rfl <;>
    exact {
      fields := ⟨by
        intro f hf
        have : ∀ f ∈ small.flatten, f.1.length = 2 ∧ f.1 ≠ "ER".toList ∧ f.1 ≠ "  ".toList ∧ f.2 ≠ [] ∧ '\n' ∉ f.1 ∧ ∀ v ∈ f.2, '\n' ∉ v := by decide +kernel
        obtain ⟨a, b, c, d, e, g⟩ := this f (List.mem_flatten.2 ⟨_, by simp [small], hf⟩)
        exact ⟨a, b, c, d, e, g⟩, by decide +kernel⟩
      noCR := by decide +kernel
      ut := by decide +kernel
      noJ9 := by decide +kernel
      first := by
        intro f hf
        obtain rfl := Option.some.inj hf
        exact ⟨by decide, 'P', by decide, by decide⟩ }
  different := by decide +kernel
  origin := by decide +kernel

def smallCell (k : Str) (p : Paper) : Option FVal :=
  if k = "AU".toList then (if linesOf p "AU" = [] then none else some (.texts (linesOf p "AU"))) else (linesOf p (String.ofList k)).head?.map .text

theorem first_in {k long : String} (hw : TagTable.Wos k.toList long.toList) (hk : k ≠ "AU")
    (ht : k.toList ∈ ["PT", "GP", "CA", "DT", "CY", "RP", "SN", "EI", "J9", "IS", "PN", "SI", "MA", "AR", "DI", "D2", "GA", "UT", "PM"].map String.toList) :
    Values w.prims small k (smallCell k.toList) := by
  refine ⟨k, long, hw, .inl rfl, fun p _ => ?_⟩
  have hk' : k.toList ≠ "AU".toList := fun e => hk (String.toList_inj.1 e)
  unfold smallCell
  rw [if_neg hk', String.ofList_toList]
  cases hv : linesOf p k with
  | nil => exact ⟨by simp, fun v hv => by cases hv⟩
  | cons x xs => exact ⟨by simp, fun v hv => by cases hv; exact .first _ _ _ ht⟩

/-- Without a choice there are exactly the columns of the three tags of the file. -/
example : ∃ (d : Dict Str (List (Option FVal))) (l : List (Option FVal)),
    frame w (fun _ => []) List.reverse (fun _ => (0, 0, 0)) none false false false (fileText "FN Clarivate".toList small) = some (.ok (some d)) ∧
    (∀ t, t ∈ d.keys ↔ t ∈ ["PT".toList, "AU".toList, "UT".toList]) ∧
    d.get? "AU".toList = some l ∧ l.Perm [some (.texts ["Lovelace, A".toList, "Byron, B".toList]), none] := by
  have hin : ∀ t : Str, (∃ p ∈ small, t ∈ p.map Prod.fst) ↔ t ∈ ["PT".toList, "AU".toList, "UT".toList] := by
    intro t
    simp only [small, List.mem_cons, List.not_mem_nil, or_false, exists_eq_or_imp, exists_eq_left, List.map_cons, List.map_nil]
    tauto
  have hPT : TagTable.Wos "PT".toList "pubType".toList := (mem_wos _ _).1 (by decide +kernel)
  have hUT : TagTable.Wos "UT".toList "wosString".toList := (mem_wos _ _).1 (by decide +kernel)
  have hAU : TagTable.Wos "AU".toList "authorsShort".toList := (mem_wos _ _).1 (by decide +kernel)
  have hlong : ∀ t ∈ ["PT".toList, "AU".toList, "UT".toList], ∃ long, TagTable.Wos t long := by
    intro t ht
    simp only [List.mem_cons, List.not_mem_nil, or_false] at ht
    rcases ht with rfl | rfl | rfl
    · exact ⟨_, hPT⟩
    · exact ⟨_, hAU⟩
    · exact ⟨_, hUT⟩
  obtain ⟨d, l, d1, d2, d3, d4, _⟩ := C127_all (fun _ => []) setting small_ok Derived.int_ok (fun _ => (0, 0, 0))
    (fun p hp f hf => hlong _ ((hin _).1 ⟨p, hp, List.mem_map_of_mem hf⟩)) false false false (cell := smallCell) (by
      intro c _ hp
      have hm := (hin _).1 hp
      show Values w.prims small (String.ofList c.1) (smallCell c.1)
      simp only [List.mem_cons, List.not_mem_nil, or_false] at hm
      rcases hm with e | e | e <;> rw [e]
      · exact first_in hPT (by decide) (by decide +kernel)
      · refine ⟨"AU", "authorsShort", hAU, .inl rfl, fun p _ => ?_⟩
        unfold smallCell
        rw [if_pos rfl]
        by_cases e : linesOf p "AU" = []
        · rw [if_pos e]; exact ⟨⟨fun _ => e, fun _ => rfl⟩, fun v hv => by cases hv⟩
        · rw [if_neg e]; exact ⟨⟨fun h => (by cases h), fun h => absurd h e⟩, fun v hv => by cases hv; exact .names _ _ (by decide)⟩
      · exact first_in hUT (by decide) (by decide +kernel))
  refine ⟨d, _, d1, fun t => ?_, d4 ("AU".toList, "authorsShort".toList) hAU ((hin _).2 (by decide)), (d2.map _).trans ?_⟩
  · rw [d3, ← hin]
    constructor
    · rintro (⟨c, _, hp, rfl⟩ | ⟨e, _⟩ | ⟨e, _⟩)
      · exact hp
      · cases e
      · cases e
    · intro hp
      obtain ⟨long, hw⟩ := hlong t ((hin t).1 hp)
      exact .inl ⟨(t, long), hw, hp, rfl⟩
  · exact List.Perm.of_eq (by decide +kernel)

end Verif.Props.FileFrames
