import Verif.Model.Pipeline
import Verif.Spec.Pipeline
import Verif.Props.Wos
import Verif.Props.WosFields
import Verif.Props.RecordAccessTables

/-! # Lemmas for C104 -/
set_option autoImplicit false
set_option linter.unusedSimpArgs false
namespace Verif.Lemmas.Pipeline
open Verif.Py Verif.Model.Wos Verif.Model.WosFields Verif.Model.RecordAccess Verif.Model.TagNames Verif.Model.Pipeline Verif.Spec.Pipeline Verif.Spec
  Verif.Props Verif.Props.WosFiles

/-- The record of a paper. -/
def toRec (p : Paper) : Model.Wos.Rec := ⟨p, (linesOf p "UT").headD [], false⟩

theorem find_get? (p : Paper) (t : Str) : (p.find? (fun f => decide (f.1 = t))).map Prod.snd = Dict.get? p t := by
  induction p with
  | nil => rfl
  | cons f p ih =>
    obtain ⟨k, v⟩ := f
    by_cases h : k = t
    · subst h; simp [Dict.get?]
    · rw [List.find?_cons_of_neg (by simpa using h), ih, Dict.get?, if_neg h]

theorem get?_lines {ws : Char → Bool} {p : Paper} (h : PaperOk ws p) (t : String) :
    Dict.get? p t.toList = if linesOf p t = [] then none else some (linesOf p t) := by
  rw [← find_get?]
  unfold linesOf
  cases hf : p.find? (fun f => decide (f.1 = t.toList)) with
  | none => simp
  | some f =>
    have : f.2 ≠ [] := (h.fields.ok f (List.mem_of_find?_eq_some hf)).ne
    simp [this]

theorem good {ws : Char → Bool} {p : Paper} (h : PaperOk ws p) : Good ws (toRec p) where
  notBad := rfl
  fields := h.fields
  noCR := h.noCR
  ut := by
    have := get?_lines h "UT"
    rw [if_neg h.ut] at this
    obtain ⟨v, vs, hv⟩ := List.exists_cons_of_ne_nil h.ut
    exact ⟨vs, by show Dict.get? p _ = _; rw [this, hv]; simp [toRec, hv]⟩
  first := h.first

theorem distinct {ws : Char → Bool} {origin : Str} {papers : List Paper} (h : FileOk ws origin papers) : Distinct (papers.map toRec) := by
  unfold Distinct
  have hd := h.different
  have he : ((papers.map toRec).map Model.Wos.Rec.id).map some = papers.map (fun p => (linesOf p "UT").head?) := by
    rw [List.map_map, List.map_map]
    apply List.map_congr_left
    intro p hp
    obtain ⟨v, vs, hv⟩ := List.exists_cons_of_ne_nil (h.each p hp).ut
    simp [toRec, hv]
  rw [← he] at hd
  exact hd.of_map

theorem fileText_eq (origin : Str) (papers : List Paper) : fileText origin papers =
    [origin ++ "\n".toList, "VR 1.0\n".toList].flatten ++ (body (papers.map toRec) ++ "EF".toList) := by
  have h : papers.flatMap (fun p => (Verif.Spec.Wos.recordLines p).flatten ++ "ER\n\n".toList) = body (papers.map toRec) := by
    unfold body
    induction papers with
    | nil => rfl
    | cons p ps ih =>
      rw [List.flatMap_cons, ih, List.map_cons, List.flatMap_cons, List.flatten_append]
      congr 1
      simp [chunk, toRec]
  rw [fileText, h]
  have : "\nVR 1.0\n".toList = "\n".toList ++ "VR 1.0\n".toList := by decide
  rw [this]
  simp

theorem header_complete {origin : Str} (h : '\n' ∉ origin) : Lines.Complete [origin ++ "\n".toList, "VR 1.0\n".toList] := by
  intro l hl
  simp only [List.mem_cons, List.not_mem_nil, or_false] at hl
  rcases hl with rfl | rfl
  · exact ⟨origin, rfl, h⟩
  · exact ⟨"VR 1.0".toList, by decide, by decide⟩

theorem dropBOM_infix (s : Str) : dropBOM s <:+ s := by
  cases s with
  | nil => exact List.suffix_refl _
  | cons c s =>
    rw [dropBOM]
    split
    · exact List.suffix_cons _ _
    · exact List.suffix_refl _

theorem dropBOM_fileText (origin : Str) (papers : List Paper) : dropBOM (fileText origin papers) = fileText (dropBOM origin) papers := by
  unfold fileText
  cases origin with
  | nil => rfl
  | cons c s =>
    simp only [List.cons_append, dropBOM]
    split <;> rfl

theorem file_lines {ws : Char → Bool} {origin : Str} {papers : List Paper} (h : FileOk ws origin papers) :
    Lines.fileLines (dropBOM (fileText origin papers)) =
      (dropBOM origin ++ "\n".toList) :: "VR 1.0\n".toList :: ((papers.map toRec).flatMap chunk ++ Lines.fileLines "EF".toList) := by
  have hg : ∀ r ∈ papers.map toRec, Good ws r := by
    intro r hr
    obtain ⟨p, hp, rfl⟩ := List.mem_map.1 hr
    exact good (h.each p hp)
  have hsub := (dropBOM_infix origin).subset
  rw [dropBOM_fileText, fileText_eq, Lines.fileLines, univ_append _ _ (by
    have : '\r' ∉ dropBOM origin := fun hm => h.origin.2.1 (hsub hm)
    simp [this]), univ_append _ _ (body_noCR _ hg), Lines.lines_flatten _ (header_complete (fun hm => h.origin.1 (hsub hm)))]
  unfold body
  rw [Lines.lines_flatten _ (flatMap_chunk_complete _ hg)]
  rfl

theorem parse_file {ws : Char → Bool} (hws : ws '\n' = true) (hE : ws 'E' = false) {origin : Str} {papers : List Paper} (h : FileOk ws origin papers) :
    isWOSFile (fileText origin papers) = true ∧ wosParser ws (fileText origin papers) = some ⟨papers.map toRec, none, false⟩ := by
  have hg : ∀ r ∈ papers.map toRec, Good ws r := by
    intro r hr
    obtain ⟨p, hp, rfl⟩ := List.mem_map.1 hr
    exact good (h.each p hp)
  have h2 : Str.contains "VR 1.0".toList "VR 1.0\n".toList = true := by decide
  constructor
  · unfold isWOSFile
    rw [file_lines h, List.any_eq_true]
    exact ⟨"VR 1.0\n".toList, by simp, h2⟩
  · have h1 : Str.contains "VR 1.0".toList (dropBOM origin ++ "\n".toList) = false := by
      rw [Bool.eq_false_iff, ne_eq, Str.contains_iff]
      obtain ⟨a, ha⟩ := dropBOM_infix origin
      intro hi
      refine h.origin.2.2 (hi.trans (List.IsSuffix.isInfix ⟨a, ?_⟩))
      rw [← List.append_assoc, ha]
    unfold wosParser
    simp only []
    rw [file_lines h, skipVR, h1, if_neg (by simp), skipVR, h2, if_pos rfl]
    show run ws _ [] = _
    rw [run_chunks ws hws _ hg [] (by simp) (by simpa using distinct h)]
    have : Lines.fileLines "EF".toList = ["EF".toList] := by decide
    rw [this, run_cons, if_neg (by rw [isSpace_false ws _ 'E' (by decide) hE]; simp), if_pos (by decide)]
    rfl

theorem records_eq (W : World) (order : List Model.Wos.Rec → List Model.Wos.Rec) (hws : W.ws '\n' = true) (hE : W.ws 'E' = false) {origin : Str}
    {papers : List Paper} (h : FileOk W.ws origin papers) : records W order (fileText origin papers) = some (order (papers.map toRec)) := by
  obtain ⟨h1, h2⟩ := parse_file hws hE h
  unfold records
  rw [if_pos h1, h2]
  rfl

/-! ## Values -/

/-- The fields as the record holds them. -/
def strFields (p : Paper) : Dict String (List Str) := p.map (fun f => (String.ofList f.1, f.2))

theorem strFields_get? (p : Paper) (k : String) : (strFields p).get? k = Dict.get? p k.toList := by
  unfold strFields
  induction p with
  | nil => rfl
  | cons f p ih =>
    obtain ⟨t, v⟩ := f
    rw [List.map_cons, Dict.get?, Dict.get?, ih]
    by_cases h : t = k.toList
    · subst h; simp
    · rw [if_neg h, if_neg]
      intro e
      exact h (by rw [← e, String.toList_ofList])

theorem noClash (W : World) {p : Paper} (h : PaperOk W.ws p) : NoClash (cls W) (strFields p) := by
  intro k a ha hne ⟨h1, h2⟩
  obtain ⟨b, hb, rfl⟩ := Option.map_eq_some_iff.1 (show (wosAlt k.toList).map String.ofList = some a from ha)
  rw [strFields_get?] at h1 h2
  rw [String.toList_ofList] at h2
  have key : ∀ t : Str, (Dict.get? p t).isSome → t.length = 2 ∧ t ≠ "j9".toList := by
    intro t ht
    obtain ⟨v, hv⟩ := Option.isSome_iff_exists.1 ht
    have hm := Dict.mem_of_get? hv
    exact ⟨(h.fields.ok _ hm).tagLen, h.noJ9 _ hm⟩
  have tab : ∀ q ∈ wosTags, q.2.length = 2 → q.2 = "j9".toList := by decide +kernel
  rcases (C47_wos_alternatives _ _).1 hb with hw | hw
  · exact (key _ h2).2 (tab _ ((mem_wos _ _).2 hw) (key _ h2).1)
  · exact (key _ h1).2 (tab _ ((mem_wos _ _).2 hw) (key _ h1).1)

/-- What is done with the result of a processing function. -/
def lift : Except VErr FVal → Except AErr (Option FVal)
  | .ok v => .ok (some v)
  | .error .keyError => .ok none
  | .error _ => .error .other

theorem value_eq (W : World) (before : Model.Wos.Rec → List (Op String FVal)) {p : Paper} (h : PaperOk W.ws p) (tag long k : String)
    (hw : Verif.Spec.TagTable.Wos tag.toList long.toList) (hk : k = tag ∨ k = long) :
    value W before k (toRec p) = if linesOf p tag = [] then .ok none else lift (wosValue W.prims tag.toList (linesOf p tag)) := by
  have hist := (C28_wos_records (cls W).proc W.truthy W.fin W.ident W.noGrants (strFields p) (noClash W h) (before (toRec p)) k).2.1
  have e : (getitem (cls W) 3 (held W (before (toRec p)) (toRec p)) k).1 = (getitem (cls W) 3 (fresh (strFields p)) k).1 := hist
  unfold value
  rw [e]
  have hm := (mem_wos _ _).2 hw
  have tab : ∀ q ∈ wosTags, q.1.length = 2 ∧ q.1 ≠ "j9".toList ∧ q.1 ≠ q.2 ∧ (q.2.length = 2 → q.2 = "j9".toList) ∧
      ∀ s ∈ ["selfCitation", "id", "grants"].map String.toList, q.1 ≠ s ∧ q.2 ≠ s := by decide +kernel
  obtain ⟨t1, t2, t3, t4, t5⟩ := tab _ hm
  dsimp only at t1 t2 t3 t4 t5
  have hlong : Dict.get? p long.toList = none := by
    cases hg : Dict.get? p long.toList with
    | none => rfl
    | some v =>
      have hmem := Dict.mem_of_get? hg
      exact absurd (t4 (h.fields.ok _ hmem).tagLen) (h.noJ9 _ hmem)
  have hne : tag ≠ long := fun e => t3 (by rw [e])
  have a1 : (cls W).alt tag = some long := by
    show (wosAlt tag.toList).map String.ofList = _
    rw [(C47_wos_alternatives _ _).2 (.inl hw)]; simp
  have a2 : (cls W).alt long = some tag := by
    show (wosAlt long.toList).map String.ofList = _
    rw [(C47_wos_alternatives _ _).2 (.inr hw)]; simp
  have hsp : (cls W).special k = .done (.error .keyError) := by
    have : ∀ s ∈ ["selfCitation", "id", "grants"], k ≠ s := by
      intro s hs ek
      have := t5 s.toList (List.mem_map_of_mem hs)
      rcases hk with rfl | rfl
      · exact this.1 (by rw [ek])
      · exact this.2 (by rw [ek])
    show wosSpecial W.truthy W.fin W.ident W.noGrants k = _
    unfold wosSpecial
    rw [if_neg (this _ (by simp)), if_neg (this _ (by simp)), if_neg (this _ (by simp))]
  have hlift : ∀ r : Verif.Model.RecordAccess.Rec String (List Str) FVal, ∀ v, (match (store (cls W) r tag ((cls W).proc tag v)).1 with
      | .ok v => Except.ok (some v)
      | .error .keyError => .ok none
      | .error e => .error e) = lift (wosValue W.prims tag.toList v) := by
    intro r v
    show (match (store (cls W) r tag (match wosValue W.prims tag.toList v with
      | .ok v => Except.ok v
      | .error .keyError => .error .keyError
      | .error _ => .error .other)).1 with
      | .ok v => Except.ok (some v)
      | .error .keyError => .ok none
      | .error e => .error e) = _
    cases hv : wosValue W.prims tag.toList v with
    | ok x => simp only [store, a1]; rfl
    | error x => cases x <;> rfl
  have hget : (strFields p).get? tag = if linesOf p tag = [] then none else some (linesOf p tag) := by rw [strFields_get?, get?_lines h]
  have hgl : (strFields p).get? long = none := by rw [strFields_get?, hlong]
  unfold getitem
  simp only [fresh, Dict.get?_nil]
  rcases hk with rfl | rfl
  · by_cases hl : linesOf p k = []
    · rw [if_pos hl] at hget
      simp only [hget, altField, a1, hgl, hsp, runProg, store, if_pos hl]
    · rw [if_neg hl] at hget
      simp only [hget, if_neg hl]
      exact hlift _ _
  · by_cases hl : linesOf p tag = []
    · rw [if_pos hl] at hget
      simp only [hget, altField, a2, hgl, hsp, runProg, store, if_pos hl]
    · rw [if_neg hl] at hget
      simp only [hgl, altField, a2, hget, if_neg hl]
      exact hlift _ _

theorem mapM_ok {α β ε : Type} (f : α → Except ε β) (g : α → β) (l : List α) (h : ∀ a ∈ l, f a = .ok (g a)) : l.mapM f = .ok (l.map g) := by
  induction l with
  | nil => rfl
  | cons a l ih =>
    rw [List.mapM_cons, h a (by simp), ih (fun b hb => h b (List.mem_cons_of_mem _ hb))]
    rfl

end Verif.Lemmas.Pipeline
