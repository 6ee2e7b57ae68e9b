import Verif.Model.JournalDB
import Verif.Lemmas.Splitting
import Verif.Props.JournalDB

/-!
# C60: pages of journal abbreviations
-/
set_option autoImplicit false
set_option linter.unusedSimpArgs false
namespace Verif.Props.JournalPage
open Verif.Py Verif.Model.JournalDB

/-! ## What a page looks like -/

/-- One entry of a page: a full name on one line and its abbreviation on the next, each after a mark with some text before it. -/
structure Entry where
  lead1 : Str
  name : Str
  lead2 : Str
  abbr : Str
deriving DecidableEq

/-- The mark before the first name, before the others and before an abbreviation. -/
def mark0 : Str := "\"></A><DT>".toList
def mark1 : Str := "</B><DT>".toList
def mark2 : Str := "<B><DD>\t".toList

/-- The mark is found at its place, and only there. -/
def Once (mark before after : Str) : Prop := ¬ mark <:+: before ++ mark.dropLast ∧ ¬ mark <:+: after

/-- The two lines of an entry. -/
def linesOf (mark : Str) (e : Entry) : List Str := [e.lead1 ++ mark ++ e.name, e.lead2 ++ mark2 ++ e.abbr]

/-- The lines after the list do not begin another entry. -/
def Over : List Str → Prop
  | l1 :: l2 :: _ => ¬ (mark1 <:+: l1 ∧ mark2 <:+: l2)
  | _ => True

/-- The names a page gives for an abbreviation, in order. -/
def namesOf (es : List Entry) (abbr : Str) : List Str := (es.filter (fun e => e.abbr = abbr)).map Entry.name

/-! ## Lemmas -/

theorem second_once (mark a b : Str) (hm : mark ≠ []) (h : Once mark a b) : second mark (a ++ mark ++ b) = some b := by
  unfold second
  rw [Verif.Lemmas.Splitting.split_first mark a b hm h.1, Str.split_none _ _ h.2]; rfl

theorem second_none (mark l : Str) (h : ¬ mark <:+: l) : second mark l = none := by
  unfold second; rw [Str.split_none _ _ h]; rfl

theorem get?_addName (d : Dict Str (List Str)) (t n a : Str) :
    (addName d t n).get? a = if t = a then some ((d.get? a).getD [] ++ [n]) else d.get? a := by
  unfold addName
  split
  · rename_i l hl
    rw [Dict.get?_set]; split
    · rename_i h; subst h; simp [hl]
    · rfl
  · rename_i hl
    rw [Dict.get?_set]; split
    · rename_i h; subst h; simp [hl]
    · rfl

/-- A list of names as an entry of the dictionary. -/
def asEntry (l : List Str) : Option (List Str) := if l = [] then none else some l

theorem loop_spec (es : List Entry) (tail : List Str) (ht : Over tail)
    (hes : ∀ e ∈ es, Once mark1 e.lead1 e.name ∧ Once mark2 e.lead2 e.abbr) (name tag : Str) (d : Dict Str (List Str)) (pre : List Entry)
    (hd : ∀ a, d.get? a = asEntry (namesOf pre a)) (e0 : Entry) (h0 : e0.name = name) (h0' : e0.abbr = tag) (a : Str) :
    (getDictLoop name tag d (es.flatMap (linesOf mark1) ++ tail)).get? a = asEntry (namesOf (pre ++ e0 :: es) a) := by
  have hadd : ∀ a, (addName d tag name).get? a = asEntry (namesOf (pre ++ [e0]) a) := by
    intro a
    rw [get?_addName, hd]
    unfold namesOf asEntry
    by_cases h : tag = a
    · subst h
      have : List.filter (fun e : Entry => decide (e.abbr = tag)) [e0] = [e0] := by simp [h0']
      rw [List.filter_append, this]
      by_cases hp : List.filter (fun e : Entry => decide (e.abbr = tag)) pre = []
      · simp [hp, h0]
      · simp [hp, h0]
    · have : List.filter (fun e : Entry => decide (e.abbr = a)) [e0] = [] := by simp [h0', h]
      rw [List.filter_append, this]
      simp [h]
  induction es generalizing name tag d pre e0 with
  | nil =>
    simp only [List.flatMap_nil, List.nil_append]
    have : getDictLoop name tag d tail = addName d tag name := by
      rw [getDictLoop.eq_def]
      split
      · rename_i l1 l2 rest
        have : ¬ (mark1 <:+: l1 ∧ mark2 <:+: l2) := ht
        by_cases hm : mark1 <:+: l1
        · have h2 : second mark2 l2 = none := second_none _ _ (fun hc => this ⟨hm, hc⟩)
          unfold mark2 at h2
          simp only [h2]
          split
          · rename_i hc; cases hc
          · rfl
        · have h1 : second mark1 l1 = none := second_none _ _ hm
          unfold mark1 at h1
          simp only [h1]
      · rfl
    rw [this]; exact hadd a
  | cons e es ih =>
    have he := hes e (by simp)
    have h1 := second_once mark1 e.lead1 e.name (by decide) he.1
    have h2 := second_once mark2 e.lead2 e.abbr (by decide) he.2
    simp only [List.flatMap_cons, linesOf, List.cons_append, List.nil_append]
    rw [getDictLoop]
    unfold mark1 at h1
    unfold mark2 at h2
    unfold mark1 mark2
    simp only [h1, h2]
    have := ih (fun x hx => hes x (by simp [hx])) e.name e.abbr (addName d tag name) (pre ++ [e0]) hadd e rfl rfl
      (by
        intro a
        rw [get?_addName, hadd]
        unfold namesOf asEntry
        by_cases h : e.abbr = a
        · subst h
          have : List.filter (fun x : Entry => decide (x.abbr = e.abbr)) [e] = [e] := by simp
          rw [List.filter_append (l₂ := [e]), this]
          by_cases hp : List.filter (fun x : Entry => decide (x.abbr = e.abbr)) (pre ++ [e0]) = []
          · simp [hp]
          · simp only [List.map_eq_nil_iff, hp, if_false, if_true, Option.getD_some, List.map_append, List.map_cons, List.map_nil, List.append_eq_nil_iff]
            simp
        · have : List.filter (fun x : Entry => decide (x.abbr = a)) [e] = [] := by simp [h]
          rw [List.filter_append (l₂ := [e]), this]
          simp [h])
    rw [List.append_assoc] at this
    exact this

/-! ## C60 -/

/-- **C60**. A page of abbreviations is read completely: each abbreviation gets the names the page lists for it, in order, and there is no other
abbreviation. -/
theorem C60_page (pre : List Str) (hpre : "<DL>".toList ∉ pre) (e0 : Entry) (es : List Entry) (tail : List Str) (ht : Over tail)
    (h0 : Once mark0 e0.lead1 e0.name ∧ Once mark2 e0.lead2 e0.abbr)
    (hes : ∀ e ∈ es, Once mark1 e.lead1 e.name ∧ Once mark2 e.lead2 e.abbr) :
    ∃ d, getDict (pre ++ "<DL>".toList :: linesOf mark0 e0 ++ es.flatMap (linesOf mark1) ++ tail) = .ok d ∧
      ∀ a, d.get? a = if namesOf (e0 :: es) a = [] then none else some (namesOf (e0 :: es) a) := by
  have h1 := second_once mark0 e0.lead1 e0.name (by decide) h0.1
  have h2 := second_once mark2 e0.lead2 e0.abbr (by decide) h0.2
  refine ⟨getDictLoop e0.name e0.abbr [] (es.flatMap (linesOf mark1) ++ tail), ?_, fun a => ?_⟩
  · unfold getDict
    have : List.dropWhile (fun x => decide (x ≠ "<DL>".toList)) (pre ++ "<DL>".toList :: linesOf mark0 e0 ++ es.flatMap (linesOf mark1) ++ tail) =
        "<DL>".toList :: linesOf mark0 e0 ++ es.flatMap (linesOf mark1) ++ tail := by
      rw [List.append_assoc, List.append_assoc, List.dropWhile_append_of_pos]
      · rw [List.cons_append, List.dropWhile_cons_of_neg (by simp)]; simp
      · intro x hx
        simp only [ne_eq, decide_not, Bool.not_eq_true', decide_eq_false_iff_not]
        rintro rfl; exact hpre hx
    rw [this]
    simp only [linesOf, List.cons_append, List.nil_append]
    unfold mark0 at h1
    unfold mark2 at h2
    unfold mark0 mark2
    simp only [h1, h2]
  · exact loop_spec es tail ht hes e0.name e0.abbr [] [] (by intro a; rfl) e0 rfl rfl a

/-- **C60**, several pages: an abbreviation gets the names of the last page that has it. -/
theorem C60_pages (ps : List (List Str)) (ds : List (Dict Str (List Str))) (h : ps.map getDict = ds.map Except.ok) :
    ∃ d, getCurrent ps [] = .ok d ∧ ∀ a, d.get? a = ds.reverse.findSome? (fun e => e.get? a) := by
  have hwf : ∀ p e, getDict p = .ok e → Dict.WF e ∧ e.length ≠ 0 := by
    intro p e he
    unfold getDict at he
    split at he
    · split at he
      · cases he
        refine ⟨Verif.Props.JournalDB.WF_getDictLoop _ _ _ _ Dict.WF_nil, ?_⟩
        intro hc
        have ha : ∀ (d : Dict Str (List Str)) t n, addName d t n ≠ [] := by
          intro d t n hc
          have : Dict.get? (addName d t n) t = none := by rw [hc]; rfl
          rw [get?_addName] at this; simp at this
        have hne : ∀ lines n t (d : Dict Str (List Str)), getDictLoop n t d lines ≠ [] := by
          intro lines n t d
          fun_induction getDictLoop n t d lines with
          | case1 _ _ _ _ _ _ _ _ _ _ ih => exact ih
          | case2 => exact ha _ _ _
          | case3 => exact ha _ _ _
        exact hne _ _ _ _ (List.length_eq_zero_iff.1 hc)
      · cases he
    · cases he
  have main : ∀ (ps : List (List Str)) (ds : List (Dict Str (List Str))) (d0 : Dict Str (List Str)), ps.map getDict = ds.map Except.ok →
      ∃ d, getCurrent ps d0 = .ok d ∧ ∀ a, d.get? a = (ds.reverse.findSome? (fun e => e.get? a)).or (d0.get? a) := by
    intro ps
    induction ps with
    | nil =>
      intro ds d0 h
      cases ds with
      | nil => exact ⟨d0, rfl, fun a => rfl⟩
      | cons => simp at h
    | cons p ps ih =>
      intro ds d0 h
      cases ds with
      | nil => simp at h
      | cons e ds =>
        simp only [List.map_cons, List.cons.injEq] at h
        obtain ⟨w1, w2⟩ := hwf p e h.1
        obtain ⟨d, hd, hg⟩ := ih ds (d0.update e) h.2
        refine ⟨d, ?_, fun a => ?_⟩
        · rw [getCurrent, h.1]; simp only [if_neg w2]; exact hd
        · rw [hg, Dict.get?_update _ _ w1, List.reverse_cons, List.findSome?_append]
          simp only [List.findSome?_cons, List.findSome?_nil]
          cases List.findSome? (fun e => Dict.get? e a) ds.reverse <;> cases Dict.get? e a <;> simp
  obtain ⟨d, hd, hg⟩ := main ps ds [] h
  exact ⟨d, hd, fun a => by rw [hg]; simp⟩

/-! ## The hypotheses can be met -/

theorem once_of (mark a b : Str) (h : Str.contains mark (a ++ mark.dropLast) = false ∧ Str.contains mark b = false) : Once mark a b := by
  refine ⟨fun hc => ?_, fun hc => ?_⟩
  · rw [← Str.contains_iff, h.1] at hc; cases hc
  · rw [← Str.contains_iff, h.2] at hc; cases hc

example : Once mark0 "<A NAME=\"A".toList "ACTA ONE".toList ∧ Once mark2 [] "ACTA".toList ∧ Once mark1 [] "BOOK".toList ∧ Over ["</B></DL>".toList] :=
  ⟨once_of _ _ _ (by decide +kernel), once_of _ _ _ (by decide +kernel), once_of _ _ _ (by decide +kernel), trivial⟩

example : namesOf [⟨[], "ACTA ONE".toList, [], "ACTA".toList⟩, ⟨[], "BOOK".toList, [], "BK".toList⟩, ⟨[], "ACTA TWO".toList, [], "ACTA".toList⟩] "ACTA".toList =
    ["ACTA ONE".toList, "ACTA TWO".toList] := by decide +kernel

end Verif.Props.JournalPage
