import Verif.Spec.GenderData
import Verif.Props.Gender

/-!
# C107: the table of names over many sessions
-/
set_option autoImplicit false
set_option linter.unusedSimpArgs false
namespace Verif.Props.GenderData
open Verif.Py Verif.Model.GenderData Verif.Spec.GenderData Verif.Spec.Gender Verif.Model.Gender

theorem pairOf_text (r : List Cell) : pairOf (r.map Csv.text) = (Csv.text (r.headD (.str [])), (r.map Csv.text)[4]?) := by
  cases r <;> rfl

/-- The rows of the file of a table. -/
theorem read_table (t : Table) (h : t.Ok) :
    (Csv.read t.text).filter (fun r => !r.isEmpty) = (t.heading :: t.rows).map (fun r => r.map Csv.text) := by
  have hne : ∀ r ∈ t.heading :: t.rows, r ≠ [] := by
    intro r hr
    rcases List.mem_cons.1 hr with rfl | hr
    · exact h.heading.1
    · exact (h.rows r hr).1
  unfold Table.text
  rw [Csv.read_rows _ hne (by
    intro r hr
    rcases List.mem_cons.1 hr with rfl | hr
    · exact h.heading.2
    · exact (h.rows r hr).2)]
  rw [List.filter_eq_self]
  intro r hr
  obtain ⟨r', h1, rfl⟩ := List.mem_map.1 hr
  have := hne r' h1
  cases r' with
  | nil => exact absurd rfl this
  | cons _ _ => rfl

/-- What the mapping of a table is. -/
theorem readFile_table (title : Str → Str) (t : Table) (h : t.Ok) :
    ∃ m, readFile title t.text = .ok m ∧ ∀ first, Dict.get? m (title first) = t.says title first := by
  unfold readFile
  rw [read_table t h]
  refine ⟨_, rfl, fun first => ?_⟩
  rw [Verif.Props.Gender.C53_list]
  unfold Table.says
  rw [← List.map_reverse, ← List.map_reverse, List.find?_map, List.find?_map, Option.map_map, Option.map_map]
  have : (fun row : Str × Option Str => decide (title row.1 = title first)) ∘ pairOf ∘ (fun r : List Cell => r.map Csv.text) =
      fun r => decide (title (Csv.text (r.headD (.str []))) = title first) := by
    funext r; simp only [Function.comp, pairOf_text]
  rw [Function.comp_assoc (fun row : Str × Option Str => decide (title row.1 = title first)), this]
  refine congrArg (fun f => Option.map f _) ?_
  funext r
  simp only [Function.comp, pairOf_text]

theorem right_iff (title : Str → Str) (t : Table) (m : Dict Str (Option Str)) (hm : ∀ first, Dict.get? m (title first) = t.says title first)
    (s : Str) (g : Option Str) : nameGender title m true s = some g ↔ Right title t s g := by
  rw [← Verif.Props.Gender.isGender_iff]
  unfold IsGender Right
  simp only [hm]

/-- What is known in a state whose file, if there is one, and whose mapping are those of `t`. -/
def From (title : Str → Str) (t : Str) (st : St) : Prop :=
  (∀ f, st.file = some f → f = t) ∧ ∀ m, st.mapping = some m → readFile title t = .ok m

theorem download_from (a : Archive) (useUK : Bool) (fate : Fate) (hf : ∀ n, fate ≠ .cut n) (file : Option Str) (f : Str)
    (h : (downloadData a useUK fate file).1 = some f) : f = (if useUK then a.uk else a.us) ∨ file = some f := by
  unfold downloadData at h
  cases fate with
  | ok => left; simpa using h.symm
  | unreachable => right; exact h
  | denied => right; exact h
  | cut n => exact absurd rfl (hf n)

theorem getMapping_from (title : Str → Str) (a : Archive) (fate : Fate) (hf : ∀ n, fate ≠ .cut n) (st : St) (h : From title a.us st) :
    From title a.us (Model.GenderData.getMapping title a false fate st).1 ∧
    ∀ m, (Model.GenderData.getMapping title a false fate st).2 = .ok m → readFile title a.us = .ok m := by
  unfold Model.GenderData.getMapping
  cases hfile : st.file with
  | some t =>
    refine ⟨h, fun m hm => ?_⟩
    rw [h.1 t hfile] at hm
    exact hm
  | none =>
    cases fate with
    | ok =>
      refine ⟨⟨fun f hf' => ?_, h.2⟩, fun m hm => hm⟩
      simp only [downloadData] at hf'
      exact (Option.some.inj hf').symm
    | unreachable => exact ⟨⟨fun f hf' => by simp [downloadData] at hf', h.2⟩, fun m hm => by simp [downloadData] at hm⟩
    | denied => exact ⟨⟨fun f hf' => by simp [downloadData] at hf', h.2⟩, fun m hm => by simp [downloadData] at hm⟩
    | cut n => exact absurd rfl (hf n)

theorem ask_from (title : Str → Str) (a : Archive) (fate : Fate) (hf : ∀ n, fate ≠ .cut n) (noExcept : Bool) (s : Str) (st : St) (h : From title a.us st) :
    From title a.us (nameStringGender title a fate noExcept s st).1 := by
  unfold nameStringGender
  split
  · exact h
  · split
    · exact h
    · obtain ⟨h1, h2⟩ := getMapping_from title a fate hf st h
      generalize Model.GenderData.getMapping title a false fate st = r at h1 h2
      obtain ⟨st1, e⟩ := r
      cases e with
      | error e => exact h1
      | ok m => exact ⟨h1.1, fun m' hm' => by cases hm'; exact h2 m rfl⟩

theorem fresh_from (title : Str → Str) (t : Str) : From title t fresh := by
  constructor
  · intro f hf; cases hf
  · intro m hm; cases hm

theorem run_from (title : Str → Str) (a : Archive) (h : List Act) (hw : ∀ x ∈ h, x.Whole ∧ x.American) (st : St) (hst : From title a.us st) :
    From title a.us (run title a h st) := by
  induction h generalizing st with
  | nil => exact hst
  | cons x h ih =>
    refine ih (fun y hy => hw y (List.mem_cons_of_mem _ hy)) _ ?_
    obtain ⟨w, u⟩ := hw x (List.mem_cons_self ..)
    cases x with
    | ask s noExcept fate => exact ask_from title a fate w noExcept s st hst
    | load useUK fate =>
      simp only [Act.American] at u
      subst u
      exact (getMapping_from title a fate w st hst).1
    | download useUK fate =>
      simp only [Act.American] at u
      subst u
      refine ⟨fun f hf => ?_, hst.2⟩
      rcases download_from a false fate w st.file f hf with hc | hc
      · exact hc
      · exact hst.1 f hc
    | newSession => exact ⟨hst.1, fun m hm => by cases hm⟩

/-- An answer comes from the table at hand. -/
theorem ask_answer (title : Str → Str) (a : Archive) (fate : Fate) (hf : ∀ n, fate ≠ .cut n) (s : Str) (st : St) (hst : From title a.us st)
    (t : Table) (ht : t.Ok) (ha : a.us = t.text) (r : Option (Option Str)) (h : (nameStringGender title a fate true s st).2 = .ok r) :
    ∃ g, r = some g ∧ Right title t s g := by
  obtain ⟨m0, hm0, hg⟩ := readFile_table title t ht
  have key : ∀ m, readFile title a.us = .ok m → m = m0 := by
    intro m hm; rw [ha, hm0] at hm; cases hm; rfl
  have fin : ∀ m, readFile title a.us = .ok m → r = nameGender title m true s → ∃ g, r = some g ∧ Right title t s g := by
    intro m hm hr
    rw [key m hm] at hr
    obtain ⟨g, hgg⟩ : ∃ g, nameGender title m0 true s = some g := by
      unfold nameGender
      split
      · exact ⟨_, rfl⟩
      · split
        · exact ⟨_, rfl⟩
        · split <;> exact ⟨_, rfl⟩
    exact ⟨g, hr.trans hgg, (right_iff title t m0 hg s g).1 hgg⟩
  unfold nameStringGender at h
  cases hp : (Str.split ", ".toList s)[1]? with
  | none =>
    rw [hp] at h
    simp only [if_true] at h
    cases h
    refine ⟨_, rfl, Or.inr ⟨?_, rfl⟩⟩
    rintro ⟨first, hfirst⟩
    obtain ⟨p, hp', -⟩ := (Verif.Props.Gender.firstName_iff s first).1 hfirst
    rw [hp] at hp'
    cases hp'
  | some p =>
    rw [hp] at h
    dsimp only at h
    cases hm : st.mapping with
    | some m =>
      rw [hm] at h
      cases h
      exact fin m (hst.2 m hm) rfl
    | none =>
      rw [hm] at h
      dsimp only at h
      obtain ⟨h1, h2⟩ := getMapping_from title a fate hf st hst
      generalize Model.GenderData.getMapping title a false fate st = x at h h1 h2
      obtain ⟨st1, e⟩ := x
      cases e with
      | error e => simp at h
      | ok m =>
        cases h
        exact fin m (h2 m rfl) rfl

/-- **C107**, what holds: if no download was broken off inside the file and nobody asked for the other table, every answer in every session is what the
American table says, whichever downloads failed on the way and however often. -/
theorem C107_sessions_partial (title : Str → Str) (a : Archive) (t : Table) (ht : t.Ok) (ha : a.us = t.text) (h : List Act)
    (hw : ∀ x ∈ h, x.Whole ∧ x.American) (s : Str) (fate : Fate) (hf : ∀ n, fate ≠ .cut n) (r : Option (Option Str))
    (hr : (nameStringGender title a fate true s (run title a h fresh)).2 = .ok r) : ∃ g, r = some g ∧ Right title t s g :=
  ask_answer title a fate hf s _ (run_from title a h hw fresh (fresh_from title _)) t ht ha r hr

/-- And an answer comes whenever the server can be reached, even if everything failed before. -/
theorem C107_answered (title : Str → Str) (a : Archive) (t : Table) (ht : t.Ok) (ha : a.us = t.text) (h : List Act)
    (hw : ∀ x ∈ h, x.Whole ∧ x.American) (s : Str) : ∃ r, (nameStringGender title a .ok true s (run title a h fresh)).2 = .ok r := by
  obtain ⟨hfile, -⟩ := run_from title a h hw fresh (fresh_from title _)
  obtain ⟨m0, hm0, -⟩ := readFile_table title t ht
  rw [← ha] at hm0
  unfold nameStringGender
  split
  · exact ⟨_, rfl⟩
  · split
    · exact ⟨_, rfl⟩
    · have : ∃ st1, Model.GenderData.getMapping title a false .ok (run title a h fresh) = (st1, .ok m0) := by
        unfold Model.GenderData.getMapping
        cases hc : (run title a h fresh).file with
        | some f => rw [hfile f hc]; exact ⟨_, congrArg (Prod.mk _) hm0⟩
        | none => exact ⟨_, congrArg (Prod.mk _) hm0⟩
      obtain ⟨st1, h1⟩ := this
      rw [h1]
      exact ⟨_, rfl⟩

/-- Once there is a file it stays, whatever is asked and loaded in however many sessions: it is never checked, completed or replaced. Every later
session answers from it. -/
theorem C107_sticks (title : Str → Str) (a : Archive) (h : List Act) (hp : ∀ x ∈ h, x.Passive) (st : St) (f : Str) (hf : st.file = some f) :
    (run title a h st).file = some f ∧
    ∀ (fate : Fate) (noExcept : Bool) (s : Str), nameStringGender title a fate noExcept s (run title a (h ++ [.newSession]) st) =
      nameStringGender title a .unreachable noExcept s ⟨some f, none⟩ := by
  have stay : ∀ (h : List Act) (st : St), (∀ x ∈ h, x.Passive) → st.file = some f → (run title a h st).file = some f := by
    intro h
    induction h with
    | nil => intro st _ hst; exact hst
    | cons x h ih =>
      intro st hp hst
      refine ih _ (fun y hy => hp y (List.mem_cons_of_mem _ hy)) ?_
      have hmap : ∀ useUK fate, (Model.GenderData.getMapping title a useUK fate st).1 = st := by
        intro useUK fate; unfold Model.GenderData.getMapping; rw [hst]
      cases x with
      | ask s noExcept fate =>
        simp only [step, nameStringGender]
        split
        · exact hst
        · split
          · exact hst
          · have := hmap false fate
            generalize Model.GenderData.getMapping title a false fate st = r at this
            obtain ⟨st1, e⟩ := r
            dsimp only at this
            subst this
            cases e <;> exact hst
      | load useUK fate => simp only [step, hmap]; exact hst
      | download useUK fate => exact absurd (hp _ (List.mem_cons_self ..)) (by simp [Act.Passive])
      | newSession => exact hst
  refine ⟨stay h st hp hf, fun fate noExcept s => ?_⟩
  have e : run title a (h ++ [.newSession]) st = ⟨some f, none⟩ := by
    unfold run
    rw [List.foldl_append]
    have := stay h st hp hf
    unfold run at this
    simp only [List.foldl_cons, List.foldl_nil, step, this]
  rw [e]
  simp only [nameStringGender, Model.GenderData.getMapping]

/-- The other table is ignored when there is a file: `getMapping(useUK = True)` gives what `getMapping()` gives. -/
theorem C107_uk_wrong (title : Str → Str) (a : Archive) (fate fate' : Fate) (st : St) (f : Str) (hf : st.file = some f) :
    Model.GenderData.getMapping title a true fate st = Model.GenderData.getMapping title a false fate' st := by
  unfold Model.GenderData.getMapping; rw [hf]

/-- And a file downloaded as the other table answers for the first one in all later sessions. -/
theorem C107_uk_stays (title : Str → Str) (a : Archive) (t : Table) (ht : t.Ok) (ha : a.uk = t.text) (h : List Act) (hp : ∀ x ∈ h, x.Passive)
    (s : Str) (fate : Fate) :
    ∃ g, (nameStringGender title a fate true s (run title a (.load true .ok :: h ++ [.newSession]) fresh)).2 = .ok (some g) ∧ Right title t s g := by
  obtain ⟨m0, hm0, hg⟩ := readFile_table title t ht
  have e : run title a (.load true .ok :: h ++ [.newSession]) fresh = run title a (h ++ [.newSession]) ⟨some a.uk, none⟩ := rfl
  rw [e, (C107_sticks title a h hp ⟨some a.uk, none⟩ a.uk rfl).2 fate true s]
  obtain ⟨r, hr⟩ : ∃ r, (nameStringGender title a .unreachable true s ⟨some a.uk, none⟩).2 = .ok r := by
    unfold nameStringGender
    split
    · exact ⟨_, rfl⟩
    · simp only [Model.GenderData.getMapping, ha, hm0]
      exact ⟨_, rfl⟩
  have hr' : (nameStringGender title ⟨a.uk, a.uk⟩ .unreachable true s ⟨some a.uk, none⟩).2 = .ok r := by
    rw [← hr]
    unfold nameStringGender
    simp only [Model.GenderData.getMapping]
  obtain ⟨g, rfl, hright⟩ := ask_answer title ⟨a.uk, a.uk⟩ .unreachable (by intro n hn; cases hn) s ⟨some a.uk, none⟩
    ⟨fun f hf => (Option.some.inj hf).symm, fun m hm => by cases hm⟩ t ht ha r hr'
  exact ⟨g, hr, hright⟩

/-- A download broken off behind a row: in this and all later sessions the answers are those of the table cut off there, so that a first name that stands only
in the rest is `Unknown`, without any exception or warning. -/
theorem C107_cut_wrong (title : Str → Str) (a : Archive) (heading : List Cell) (rows1 rows2 : List (List Cell)) (s0 : Str) (p : Str)
    (h0 : (Str.split ", ".toList s0)[1]? = some p)
    (ht : Table.Ok ⟨heading, rows1 ++ rows2⟩) (ha : a.us = Table.text ⟨heading, rows1 ++ rows2⟩) (h : List Act) (hp : ∀ x ∈ h, x.Passive) (s : Str)
    (noExcept : Bool) (fate : Fate) :
    ∃ g, (nameStringGender title a fate true s
        (run title a (.ask s0 noExcept (.cut (Table.text ⟨heading, rows1⟩).length) :: h ++ [.newSession]) fresh)).2 = .ok (some g) ∧
      Right title ⟨heading, rows1⟩ s g ∧
      (∀ first, FirstName s first → (∀ r ∈ rows1, title (Csv.text (r.headD (.str []))) ≠ title first) → g = some "Unknown".toList) := by
  have htext : a.us = Table.text ⟨heading, rows1⟩ ++ Csv.rows rows2 := by
    rw [ha]; unfold Table.text Csv.rows; simp
  have htake : a.us.take (Table.text ⟨heading, rows1⟩).length = Table.text ⟨heading, rows1⟩ := by
    rw [htext]; simp
  have hok : Table.Ok ⟨heading, rows1⟩ := ⟨ht.heading, fun r hr => ht.rows r (List.mem_append_left _ hr)⟩
  have e : run title a (.ask s0 noExcept (.cut (Table.text ⟨heading, rows1⟩).length) :: h ++ [.newSession]) fresh =
      run title a (h ++ [.newSession]) ⟨some (Table.text ⟨heading, rows1⟩), none⟩ := by
    unfold run
    rw [List.cons_append, List.foldl_cons]
    congr 1
    simp only [step, nameStringGender, h0, fresh, Model.GenderData.getMapping, downloadData, Bool.false_eq_true, if_false, htake]
  obtain ⟨m0, hm0, hg⟩ := readFile_table title _ hok
  rw [e, (C107_sticks title a h hp ⟨some (Table.text ⟨heading, rows1⟩), none⟩ _ rfl).2 fate true s]
  obtain ⟨r, hr⟩ : ∃ r, (nameStringGender title a .unreachable true s ⟨some (Table.text ⟨heading, rows1⟩), none⟩).2 = .ok r := by
    unfold nameStringGender
    split
    · exact ⟨_, rfl⟩
    · simp only [Model.GenderData.getMapping, hm0]
      exact ⟨_, rfl⟩
  have hr' : (nameStringGender title ⟨Table.text ⟨heading, rows1⟩, a.uk⟩ .unreachable true s ⟨some (Table.text ⟨heading, rows1⟩), none⟩).2 = .ok r := by
    rw [← hr]
    unfold nameStringGender
    simp only [Model.GenderData.getMapping]
  obtain ⟨g, rfl, hright⟩ := ask_answer title ⟨Table.text ⟨heading, rows1⟩, a.uk⟩ .unreachable (by intro n hn; cases hn) s
    ⟨some (Table.text ⟨heading, rows1⟩), none⟩ ⟨fun f hf => (Option.some.inj hf).symm, fun m hm => by cases hm⟩ _ hok rfl r hr'
  refine ⟨g, hr, hright, fun first hfirst hnot => ?_⟩
  rcases hright with ⟨first', hf', hgg⟩ | ⟨hno, -⟩
  · have : first' = first := by
      obtain ⟨p1, hp1, e1⟩ := (Verif.Props.Gender.firstName_iff s first').1 hf'
      obtain ⟨p2, hp2, e2⟩ := (Verif.Props.Gender.firstName_iff s first).1 hfirst
      rw [hp1] at hp2
      cases hp2
      rw [e1, e2]
    subst this
    rw [hgg]
    have hnone : Table.says title ⟨heading, rows1⟩ first' = none := by
      unfold Table.says
      rw [Option.map_eq_none_iff, List.find?_eq_none]
      intro r hr
      simpa using hnot r (List.mem_reverse.1 hr)
    rw [hnone]
    rfl
  · exact absurd ⟨first, hfirst⟩ hno

/-- A download broken off before the first character: in all later sessions every name with a first name raises `StopIteration`. -/
theorem C107_empty_wrong (title : Str → Str) (a : Archive) (s0 : Str) (p : Str) (h0 : (Str.split ", ".toList s0)[1]? = some p) (h : List Act)
    (hp : ∀ x ∈ h, x.Passive) (s : Str) (first : Str) (hs : FirstName s first) (noExcept noExcept' : Bool) (fate : Fate) :
    (nameStringGender title a fate noExcept' s (run title a (.ask s0 noExcept (.cut 0) :: h ++ [.newSession]) fresh)).2 = .error .stopIteration := by
  have e : run title a (.ask s0 noExcept (.cut 0) :: h ++ [.newSession]) fresh = run title a (h ++ [.newSession]) ⟨some [], none⟩ := by
    unfold run
    rw [List.cons_append, List.foldl_cons]
    congr 1
    simp only [step, nameStringGender, h0, fresh, Model.GenderData.getMapping, downloadData, Bool.false_eq_true, if_false, List.take_zero]
  rw [e, (C107_sticks title a h hp ⟨some [], none⟩ [] rfl).2 fate noExcept' s]
  obtain ⟨q, hq, -⟩ := (Verif.Props.Gender.firstName_iff s first).1 hs
  unfold nameStringGender
  rw [hq]
  simp only [Model.GenderData.getMapping]
  rfl

/-! ## The hypotheses can be met -/

def exHeading : List Cell := ["Name", "years", "cm", "cf", "prob", "o", "e", "u", "l"].map (fun s => Cell.str s.toList)
def exRow (name : String) (g : String) : List Cell :=
  [.str name.toList, .num 3, .num 1, .num 2, .str g.toList, .num 0, .num 0, .num 0, .num 0]

theorem ex_ok : Table.Ok ⟨exHeading, [exRow "ann" "Female"] ++ [exRow "bob" "Male"]⟩ := by
  have hn : ∀ s : String, '\r' ∉ s.toList → Csv.CellOk (.str s.toList) := fun s h => h
  refine ⟨⟨by simp [exHeading], ?_⟩, ?_⟩
  · intro c hc
    simp only [exHeading, List.map_cons, List.map_nil, List.mem_cons, List.not_mem_nil, or_false] at hc
    rcases hc with rfl | rfl | rfl | rfl | rfl | rfl | rfl | rfl | rfl <;> exact hn _ (by decide)
  · intro r hr
    simp only [List.cons_append, List.nil_append, List.mem_cons, List.not_mem_nil, or_false] at hr
    rcases hr with rfl | rfl <;> refine ⟨by simp [exRow], fun c hc => ?_⟩ <;>
    · simp only [exRow, List.mem_cons, List.not_mem_nil, or_false] at hc
      rcases hc with rfl | rfl | rfl | rfl | rfl | rfl | rfl | rfl | rfl <;> first | trivial | exact hn _ (by decide)

def exArchive : Archive := ⟨Table.text ⟨exHeading, [exRow "ann" "Female"] ++ [exRow "bob" "Male"]⟩, []⟩

/-- Bob is `Male` in the table, and stays so over failed downloads and sessions. -/
example : (nameStringGender id exArchive .ok true "Lee, bob".toList
    (run id exArchive [.ask "Lee, bob".toList true .unreachable, .load false .denied, .newSession] fresh)).2.toOption = some (some (some "Male".toList)) := by
  decide +kernel

/-- After a download broken off behind the first row he is `Unknown`, and Ann is not. -/
example : let st := run id exArchive [.ask "Lee, bob".toList true (.cut (Table.text ⟨exHeading, [exRow "ann" "Female"]⟩).length), .newSession] fresh
    (nameStringGender id exArchive .ok true "Lee, bob".toList st).2.toOption = some (some (some "Unknown".toList)) ∧
    (nameStringGender id exArchive .ok true "Lee, ann".toList st).2.toOption = some (some (some "Female".toList)) := by decide +kernel

example : (Str.split ", ".toList "Lee, bob".toList)[1]? = some "bob".toList := by decide +kernel

example : FirstName "Lee, bob".toList "bob".toList := (Verif.Props.Gender.firstName_iff _ _).2 ⟨"bob".toList, by decide +kernel, by decide⟩

end Verif.Props.GenderData
