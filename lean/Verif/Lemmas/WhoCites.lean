import Verif.Model.WhoCites
import Verif.Spec.WhoCites
import Verif.Props.Pipeline
import Verif.Props.BibCoupling

/-! # Lemmas for C118 -/
set_option autoImplicit false
set_option linter.unusedSimpArgs false
namespace Verif.Lemmas.WhoCites
open Verif.Py Verif.Model.WosFields Verif.Model.RecordAccess Verif.Model.Pipeline Verif.Model.WhoCites Verif.Model.CiteParse Verif.Spec.Pipeline Verif.Spec.WhoCites Verif.Spec
  Verif.Lemmas.Pipeline Verif.Props.CiteParse

variable {C : Chars}

/-! ## Lines of references -/

theorem part_tagged (mark : String) (o : Option Str) : part mark o = tagged mark.toList o := by cases o <;> rfl

theorem present_self (o : Option Str) (h : ∀ s, o = some s → s ≠ []) : present o = o := by
  cases o with
  | none => rfl
  | some s => unfold present; simp [h s rfl]

theorem no_filter (s : Str) (c : Char) (h : c ∉ s) : s.filter (fun d => d ≠ c) = s := by
  rw [List.filter_eq_self]
  intro d hd
  simp only [ne_eq, decide_not, Bool.not_eq_true', decide_eq_false_iff_not]
  rintro rfl
  exact h hd

/-- What the values are of which a reference is made. -/
def refVals (r : Ref) : Vals := ⟨[r.author], some r.year, some r.journal, none, r.volume, r.page, r.doi⟩

theorem string_eq (v : Vals) (r : Ref) (hr : r.Ok) (ha : v.authors.head?.map (fun a => a.filter (fun c => c ≠ ',')) = some r.author)
    (hy : v.year = some (r.year : Int)) (hj : JournalIs v r.journal) (hv : present v.volume = r.volume) (hp : present v.page = r.page) (hd : present v.doi = r.doi) :
    citeString v = r.line := by
  unfold citeString
  rw [tailVals_eq v r.year hy (by have := hr.year.1; omega) r.journal hj hr.journal]
  have e1 : (v.authors.take 1).map citeAuthor = [r.author] := by
    cases h : v.authors with
    | nil => rw [h] at ha; cases ha
    | cons a l => rw [h] at ha; exact congrArg (fun x => [x]) (Option.some.inj ha)
  rw [e1, hv, hp, hd, List.singleton_append, join_flat, List.flatMap_cons, List.flatMap_cons, flat_tagged, flat_tagged, flat_tagged]
  unfold Ref.line
  rw [part_tagged, part_tagged, part_tagged]
  simp

theorem line_eq (r : Ref) (h : r.Ok) : r.line = citeString (refVals r) := by
  refine (string_eq (refVals r) r h ?_ rfl (Or.inl rfl) (present_self r.volume (fun s hs => (h.volume s hs).1))
    (present_self r.page (fun s hs => (h.page s hs).1)) (present_self r.doi (fun s hs => (h.doi s hs).1))).symm
  show some (r.author.filter _) = some r.author
  rw [no_filter _ _ h.noComma.1]

/-- The citation of values of which a reference is made. -/
theorem read_vals (hC : UpperOk C.up) (v : Vals) (r : Ref) (hr : r.Ok) (ha : v.authors.head?.map (fun a => a.filter (fun c => c ≠ ',')) = some r.author)
    (hy : v.year = some (r.year : Int)) (hj : JournalIs v r.journal) (hv : present v.volume = r.volume) (hp : present v.page = r.page) (hd : present v.doi = r.doi) :
    ∃ p, parseWos C (citeString v) = some p ∧ p.cite.id = r.label C.upper C.title ∧ p.cite.bad = false ∧ p.cite.year = some (some (r.year : Int)) ∧
      p.cite.original = citeString v := by
  obtain ⟨a, hva, hra⟩ : ∃ a, v.authors.head? = some a ∧ a.filter (fun c => c ≠ ',') = r.author := by
    cases h : v.authors.head? with
    | none => rw [h] at ha; cases ha
    | some a => rw [h] at ha; exact ⟨a, rfl, Option.some.inj ha⟩
  have hnc : ∀ (o q : Option Str) (c : Char), present o = q → (∀ s, q = some s → s ≠ [] ∧ c ∉ s) → ∀ w, o = some w → c ∉ w := by
    rintro o q c rfl hq w rfl
    by_cases h0 : w = []
    · rw [h0]; simp
    · exact (hq w (by unfold present; simp [h0])).2
  obtain ⟨p, h1, h2, h3, h4, h5, -⟩ := C37_parses_back hC v r.year hy hr.year.1 hr.year.2 r.journal hj hr.journal hr.noComma.2 (by
      intro b hb
      rw [hva] at hb
      obtain rfl := Option.some.inj hb
      obtain ⟨c, d, t, e1, e2⟩ := hr.author
      exact ⟨c, d, t, hra.trans e1, e2⟩) (hnc _ _ _ hv hr.volume) (hnc _ _ _ hp hr.page) (hnc _ _ _ hd hr.doi)
  have hb : p.cite.bad = false := by
    rw [h2]
    cases h : v.authors with
    | nil => rw [h] at hva; cases hva
    | cons b l => rfl
  obtain ⟨a', y', j', g1, g2, g3, g4, -⟩ := good_form C p ⟨_, Or.inl h1⟩ hb
  obtain ⟨q, q1, q2⟩ := C36_total C (citeString v)
  rw [h1] at q1
  obtain rfl := Option.some.inj q1
  refine ⟨p, h1, ?_, hb, h4, q2⟩
  rw [h3, hva] at g1
  rw [h4] at g2
  rw [h5] at g3
  have e1 : shownAuthor C a = a' := Option.some.inj (Option.some.inj g1)
  have e2 : (r.year : Int) = y' := Option.some.inj (Option.some.inj g2)
  have e3 : C.upper r.journal = j' := Option.some.inj (Option.some.inj g3)
  rw [g4, ← e1, ← e2, ← e3]
  unfold fullId shownAuthor Ref.label
  rw [hra]
  rfl

theorem read_line (hC : UpperOk C.up) (r : Ref) (hr : r.Ok) : ∃ p, parseWos C r.line = some p ∧ p.cite.id = r.label C.upper C.title := by
  rw [line_eq r hr]
  obtain ⟨p, h1, h2, -⟩ := read_vals hC (refVals r) r hr (by
      show some (r.author.filter _) = some r.author
      rw [no_filter _ _ hr.noComma.1]) rfl (Or.inl rfl)
    (present_self r.volume (fun s hs => (hr.volume s hs).1)) (present_self r.page (fun s hs => (hr.page s hs).1)) (present_self r.doi (fun s hs => (hr.doi s hs).1))
  exact ⟨p, h1, h2⟩

/-! ## The citation of a paper -/

variable {W : World} (before : Model.Wos.Rec → List (Op String FVal))

theorem text_read {p : Paper} (hp : PaperOk W.ws p) (tag long : String) (hw : TagTable.Wos tag.toList long.toList) (f : Str → Str)
    (hf : ∀ v rest, wosValue W.prims tag.toList (v :: rest) = .ok (.text (f v))) :
    value W before long (toRec p) = .ok (((linesOf p tag).head?.map f).map FVal.text) := by
  rw [value_eq W before hp tag long long hw (Or.inr rfl)]
  cases h : linesOf p tag with
  | nil => rfl
  | cons v rest => rw [if_neg (by simp), hf]; rfl

theorem textVal_map (o : Option Str) : textVal (o.map FVal.text) = .ok o := by cases o <;> rfl

/-- The values of a paper of which its citation is made. -/
def paperVals (W : World) (p : Paper) (r : Ref) : Vals :=
  ⟨linesOf p "AU", some r.year, (linesOf p "J9").head?, if linesOf p "TI" = [] then none else some (textOf p "TI"),
    (linesOf p "VL").head?.map (Str.strip W.prims.ws), (linesOf p "BP").head?.map (Str.strip W.prims.ws), (linesOf p "DI").head?⟩

theorem create_eq (hint : ∀ n : Nat, W.prims.int (showNat n) = some (n : Int)) {p : Paper} (hp : PaperOk W.ws p) (r : Ref) (hd : Describes (Str.strip W.prims.ws) r p) :
    createCitation W before (toRec p) = match parseWos W.chars (citeString (paperVals W p r)) with
      | some q => .ok q.cite
      | none => .error .other := by
  have hau : value W before "authorsShort" (toRec p) = .ok (some (.texts (linesOf p "AU"))) := by
    rw [value_eq W before hp "AU" "authorsShort" _ (by unfold TagTable.Wos; decide +kernel) (Or.inr rfl)]
    cases h : linesOf p "AU" with
    | nil => have := hd.author; rw [h] at this; cases this
    | cons a l => rw [if_neg (by simp), (Props.WosFields.C69_lines W.prims "AU".toList (by decide) _).1]; rfl
  have hy : value W before "year" (toRec p) = .ok (some (.num r.year)) := by
    rw [value_eq W before hp "PY" "year" _ (by unfold TagTable.Wos; decide +kernel) (Or.inr rfl)]
    have h3 := hd.year.2.2
    cases h : linesOf p "PY" with
    | nil => rw [h] at h3; cases h3
    | cons a l =>
      rw [h] at h3
      obtain rfl : a = showNat r.year := by simpa using h3
      rw [if_neg (by simp), Props.WosFields.C69_year_digits W.prims hint r.year ⟨hd.year.1, hd.year.2.1⟩]; rfl
  have hj := text_read before hp "J9" "j9" (by unfold TagTable.Wos; decide +kernel) id (fun v rest => (Props.WosFields.C69_first W.prims v rest).1 _ (by decide))
  have hdo := text_read before hp "DI" "DOI" (by unfold TagTable.Wos; decide +kernel) id (fun v rest => (Props.WosFields.C69_first W.prims v rest).1 _ (by decide))
  have hvl := text_read before hp "VL" "volume" (by unfold TagTable.Wos; decide +kernel) (Str.strip W.prims.ws)
    (fun v rest => (Props.WosFields.C69_first W.prims v rest).2 _ (by decide))
  have hbp := text_read before hp "BP" "beginningPage" (by unfold TagTable.Wos; decide +kernel) (Str.strip W.prims.ws)
    (fun v rest => (Props.WosFields.C69_first W.prims v rest).2 _ (by decide))
  have hti : value W before "title" (toRec p) = .ok ((if linesOf p "TI" = [] then none else some (textOf p "TI")).map FVal.text) := by
    rw [value_eq W before hp "TI" "title" _ (by unfold TagTable.Wos; decide +kernel) (Or.inr rfl), Props.WosFields.C69_text W.prims "TI".toList (by decide)]
    split <;> rfl
  rw [Option.map_id] at hj hdo
  unfold createCitation
  rw [hau, hy, hj, hti, hvl, hbp, hdo]
  simp only [bind, Except.bind, names, yearVal, textVal_map, id]
  rfl

theorem journal_is {p : Paper} {r : Ref} {strip : Str → Str} (hd : Describes strip r p) : JournalIs (paperVals W p r) r.journal := by
  rcases hd.journal with h | ⟨h, h1, h2⟩
  · left
    show (linesOf p "J9").head? = _
    unfold firstOf at h
    cases hh : (linesOf p "J9").head? with
    | none => rw [hh] at h; cases h
    | some s =>
      rw [hh, Option.filter] at h
      split at h
      · exact h
      · cases h
  · right
    refine ⟨h, ?_⟩
    show (if linesOf p "TI" = [] then none else some (textOf p "TI")) = _
    rw [if_neg h1, h2]

theorem create_line (hint : ∀ n : Nat, W.prims.int (showNat n) = some (n : Int)) {p : Paper} (hp : PaperOk W.ws p) (r : Ref)
    (hd : Describes (Str.strip W.prims.ws) r p) (hr : r.Ok) :
    createCitation W before (toRec p) = match parseWos W.chars r.line with
      | some q => .ok q.cite
      | none => .error .other := by
  rw [create_eq before hint hp r hd, string_eq (paperVals W p r) r hr hd.author rfl (journal_is hd) hd.volume.symm hd.page.symm hd.doi.symm]

end Verif.Lemmas.WhoCites
