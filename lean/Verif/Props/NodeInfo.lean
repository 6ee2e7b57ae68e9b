import Verif.Model.NodeInfo
import Mathlib.Data.List.Perm.Basic

/-! # C75: what the nodes of a citation network say -/
set_option autoImplicit false
set_option linter.unusedSimpArgs false
namespace Verif.Props.NodeInfo
open Verif.Py Verif.Model.NodeInfo

section
variable {ω κ : Type} [DecidableEq κ]

/-! ## Specification -/

/-- A string without its commas. -/
def noCommas (s : Str) : Str := s.filter (· ≠ ',')

/-- What is shown of a field: a string or the first string of a list, without commas; nothing of other values. -/
def shown (R : Rec ω κ) (tag : Str) : Option Str :=
  match R.get tag with
  | .str s => some (noCommas s)
  | .list (.str s :: _) => some (noCommas s)
  | _ => none

/-- The record of the collection with this citation, the last if there are several. -/
def recordOf (recs : List (Rec ω κ)) (k : κ) : Option (Rec ω κ) := recs.reverse.find? (fun r => r.own = k)

/-- The attributes a node has whatever else it says: the full citation and a count, if asked for. -/
def Common (c : CiteV κ) (fullInfo count : Bool) (d : Dict Str (Attr ω)) : Prop :=
  d.get? "fullCite".toList = (if fullInfo then some (.str c.text) else none) ∧ d.get? "count".toList = if count then some (.num 1) else none

/-! ## Helpers -/

theorem coreDict_get (recs : List (Rec ω κ)) (k : κ) : (coreDict recs).get? k = recordOf recs k := by
  unfold coreDict recordOf
  have : ∀ (recs : List (Rec ω κ)) (d : Dict κ (Rec ω κ)), (recs.foldl (fun d r => d.set r.own r) d).get? k = (recs.reverse.find? (fun r => r.own = k)).or (d.get? k) := by
    intro recs
    induction recs with
    | nil => intro d; rfl
    | cons r recs ih =>
      intro d
      rw [List.foldl_cons, ih, List.reverse_cons, List.find?_append, Dict.get?_set]
      cases List.find? (fun r => decide (r.own = k)) recs.reverse with
      | some x => rfl
      | none =>
        by_cases h : r.own = k
        · simp [h]
        · simp [h]
  rw [this]
  simp [Dict.get?]

theorem splitGo_comma (acc s : Str) : Str.join [] (Str.splitGo [','] 0 acc s) = acc ++ noCommas s := by
  induction s generalizing acc with
  | nil => simp [Str.splitGo, Str.join, noCommas]
  | cons c s ih =>
    by_cases h : c = ','
    · subst h
      have e := Str.splitGo_sep [','] (by simp) acc s
      rw [List.singleton_append] at e
      rw [e]
      have hne := Str.splitGo_ne_nil [','] 0 [] s
      rw [Str.join_cons _ _ _ hne, ih]
      simp [noCommas]
    · have e : Str.splitGo [','] 0 acc (c :: s) = Str.splitGo [','] 0 (acc ++ [c]) s := by
        simp [Str.splitGo, Ne.symm h]
      rw [e, ih]
      simp [noCommas, h]

theorem replace_comma (s : Str) : Str.replace ",".toList [] s = noCommas s := by
  unfold Str.replace Str.split
  exact splitGo_comma [] s

theorem noCommas_not (s : Str) : ',' ∉ noCommas s := by simp [noCommas]

theorem infoVals_ok (R : Rec ω κ) (tags : List Str) (h : ∀ tag ∈ tags, ∀ l, R.get tag = .list l → ∃ s rest, l = .str s :: rest) :
    infoVals R tags = .ok (tags.filterMap (shown R)) := by
  induction tags with
  | nil => rfl
  | cons tag tags ih =>
    have ih' := ih fun t ht => h t (List.mem_cons_of_mem _ ht)
    have ht := h tag (by simp)
    rw [infoVals, List.filterMap_cons]
    unfold shown
    cases hg : R.get tag with
    | str s => dsimp only; rw [ih', replace_comma]; rfl
    | list l =>
      obtain ⟨s, rest, rfl⟩ := ht l hg
      dsimp only
      rw [ih', replace_comma]; rfl
    | other o => exact ih'
    | none => exact ih'

theorem infoVals_error (R : Rec ω κ) (tags : List Str) (tag : Str) (ht : tag ∈ tags) (l : List Elem) (hl : R.get tag = .list l) (hb : l = [] ∨ ∃ rest, l = .other :: rest) :
    ∃ e, infoVals R tags = .error e := by
  induction tags with
  | nil => cases ht
  | cons t tags ih =>
    rw [infoVals]
    rcases List.mem_cons.1 ht with rfl | ht
    · rw [hl]
      rcases hb with rfl | ⟨rest, rfl⟩
      · exact ⟨_, rfl⟩
      · exact ⟨_, rfl⟩
    · obtain ⟨e, he⟩ := ih ht
      cases hg : R.get t with
      | str s => dsimp only; rw [he]; exact ⟨_, rfl⟩
      | list l' =>
        match l' with
        | [] => exact ⟨_, rfl⟩
        | .other :: _ => exact ⟨_, rfl⟩
        | .str s :: _ => dsimp only; rw [he]; exact ⟨_, rfl⟩
      | other o => exact ⟨e, he⟩
      | none => exact ⟨e, he⟩

theorem strings_map (ss : List Str) : strings (ss.map .str) = some ss := by
  induction ss with
  | nil => rfl
  | cons s ss ih => rw [List.map_cons, strings, ih]; rfl

/-- How a field is shown when each has its own attribute. -/
def detail (sorted : List Str → List Str) : RVal ω → Attr ω
  | .list l => .str (Str.join "|".toList (sorted (l.filterMap (fun e => match e with | .str s => some s | .other => none))))
  | v => .val v

theorem filterMap_str (ss : List Str) : (ss.map Elem.str).filterMap (fun e => match e with | .str s => some s | .other => none) = ss := by
  induction ss with
  | nil => rfl
  | cons s ss ih => rw [List.map_cons, List.filterMap_cons, ih]

theorem detailed_spec (sorted : List Str → List Str) (R : Rec ω κ) (tags : List Str) (d : Dict Str (Attr ω))
    (h : ∀ tag ∈ tags, ∀ l, R.get tag = .list l → ∃ ss : List Str, l = ss.map .str) :
    ∃ d', detailed sorted R tags d = .ok d' ∧ (∀ t ∈ tags, d'.get? t = some (detail sorted (R.get t))) ∧ ∀ t, t ∉ tags → d'.get? t = d.get? t := by
  induction tags generalizing d with
  | nil => exact ⟨d, rfl, by simp, fun _ _ => rfl⟩
  | cons tag tags ih =>
    have step : detailed sorted R (tag :: tags) d = detailed sorted R tags (d.set tag (detail sorted (R.get tag))) := by
      rw [detailed]
      cases hg : R.get tag with
      | list l =>
        obtain ⟨ss, rfl⟩ := h tag (by simp) l hg
        dsimp only
        rw [strings_map]
        dsimp only [detail]
        rw [filterMap_str]
      | str s => rfl
      | other o => rfl
      | none => rfl
    obtain ⟨d', e1, e2, e3⟩ := ih (d.set tag (detail sorted (R.get tag))) fun t ht => h t (List.mem_cons_of_mem _ ht)
    refine ⟨d', step.trans e1, ?_, ?_⟩
    · intro t ht
      by_cases hm : t ∈ tags
      · exact e2 t hm
      · rcases List.mem_cons.1 ht with rfl | ht
        · rw [e3 _ hm, Dict.get?_set_self]
        · exact absurd ht hm
    · intro t ht
      simp only [List.mem_cons, not_or] at ht
      rw [e3 t ht.2, Dict.get?_set_ne _ _ (Ne.symm ht.1)]

/-- The end of `makeNode`. -/
def finish (c : CiteV κ) (fullInfo count : Bool) (d : Dict Str (Attr ω)) : Dict Str (Attr ω) :=
  let d := if fullInfo then d.set "fullCite".toList (.str c.text) else d
  if count then d.set "count".toList (.num 1) else d

theorem finish_get (c : CiteV κ) (fullInfo count : Bool) (d : Dict Str (Attr ω)) (k : Str) (h1 : "fullCite".toList ≠ k) (h2 : "count".toList ≠ k) :
    (finish c fullInfo count d).get? k = d.get? k := by
  unfold finish
  cases fullInfo <;> cases count <;> simp only [if_true, if_false, Bool.false_eq_true]
  · exact Dict.get?_set_ne _ _ h2
  · exact Dict.get?_set_ne _ _ h1
  · rw [Dict.get?_set_ne _ _ h2, Dict.get?_set_ne _ _ h1]

theorem finish_common (c : CiteV κ) (fullInfo count : Bool) (d : Dict Str (Attr ω)) (h1 : d.get? "fullCite".toList = none) (h2 : d.get? "count".toList = none) :
    Common c fullInfo count (finish c fullInfo count d) := by
  have hne : "count".toList ≠ "fullCite".toList := by decide
  unfold finish Common
  cases fullInfo <;> cases count <;> simp only [if_true, if_false, Bool.false_eq_true]
  · exact ⟨h1, h2⟩
  · exact ⟨by rw [Dict.get?_set_ne _ _ hne, h1], Dict.get?_set_self _ _ _⟩
  · exact ⟨Dict.get?_set_self _ _ _, by rw [Dict.get?_set_ne _ _ (Ne.symm hne), h2]⟩
  · exact ⟨by rw [Dict.get?_set_ne _ _ hne, Dict.get?_set_self], Dict.get?_set_self _ _ _⟩

theorem split_shown (l : List Str) (hl : l ≠ []) (h : ∀ p ∈ l, ',' ∉ p) : Str.split ", ".toList (Str.join ", ".toList l) = l := by
  apply Str.split_join _ (by simp) _ hl
  intro p hp hi
  have hd : (", ".toList).dropLast = [','] := rfl
  rw [hd] at hi
  obtain ⟨a, b, e⟩ := hi
  have e' : a ++ ',' :: ' ' :: b = p ++ [','] := by
    rw [← e]
    show _ = a ++ [',', ' '] ++ b
    simp
  rcases List.append_eq_append_iff.1 e' with ⟨x, h1, h2⟩ | ⟨x, h1, h2⟩
  · cases x with
    | nil => simp at h2
    | cons y x =>
      have hy : ',' = y := (List.cons.inj h2).1
      exact h p hp (by rw [h1, ← hy]; simp)
  · cases x with
    | nil => simp at h2
    | cons y x =>
      have := (List.cons.inj h2).2
      simp at this

/-! ## C75 -/

/-- C75: a node for a citation of a record in the collection names the record, says it is in the core, and lists the asked fields of the record without commas, so
that splitting at `', '` gives them back. -/
theorem C75_core (sorted : List Str → List Str) (c : CiteV κ) (idVal : Attr ω) (fullInfo count addCR : Bool) (recs : List (Rec ω κ)) (coreValues : List Str) (R : Rec ω κ)
    (hv : coreValues ≠ []) (hR : recordOf recs c.key = some R) (hok : ∀ tag ∈ coreValues, ∀ l, R.get tag = .list l → ∃ s rest, l = .str s :: rest) :
    ∃ d info, makeNode sorted c idVal true fullInfo .full count (coreDict recs) coreValues false addCR = .ok d ∧ d.get? "MK-ID".toList = some (.str R.id) ∧
      d.get? "inCore".toList = some (.bool true) ∧ d.get? "info".toList = some (.str info) ∧
      info = Str.join ", ".toList (coreValues.filterMap (shown R)) ∧
      (coreValues.filterMap (shown R) ≠ [] → Str.split ", ".toList info = coreValues.filterMap (shown R)) ∧
      d.get? "citations".toList = (if addCR then some (.str (Str.join "|".toList R.cites)) else none) ∧ Common c fullInfo count d := by
  let d0 : Dict Str (Attr ω) := (Dict.set [("MK-ID".toList, .str R.id)] "info".toList (.str (Str.join ", ".toList (coreValues.filterMap (shown R))))).set "inCore".toList (.bool true)
  let d1 := if addCR then d0.set "citations".toList (.str (Str.join "|".toList R.cites)) else d0
  have hmk : makeNode sorted c idVal true fullInfo .full count (coreDict recs) coreValues false addCR = .ok (finish c fullInfo count d1) := by
    have hlen : coreValues.length ≠ 0 := fun h => hv (List.length_eq_zero_iff.1 h)
    unfold makeNode
    simp only [if_true, if_pos hlen, coreDict_get, hR, infoVals_ok R coreValues hok, Bool.not_false]
    rfl
  have hsp : ∀ p ∈ coreValues.filterMap (shown R), ',' ∉ p := by
    intro p hp
    obtain ⟨t, _, ht⟩ := List.mem_filterMap.1 hp
    unfold shown at ht
    split at ht
    · cases ht; exact noCommas_not _
    · cases ht; exact noCommas_not _
    · cases ht
  have hd0 : ∀ k, k ≠ "citations".toList → d1.get? k = d0.get? k := by
    intro k hk
    show Dict.get? (if addCR then _ else _) k = _
    cases addCR
    · rfl
    · exact Dict.get?_set_ne _ _ (Ne.symm hk)
  refine ⟨_, _, hmk, ?_, ?_, ?_, rfl, fun hne => split_shown _ hne hsp, ?_, ?_⟩
  · rw [finish_get _ _ _ _ _ (by decide) (by decide), hd0 _ (by decide)]; rfl
  · rw [finish_get _ _ _ _ _ (by decide) (by decide), hd0 _ (by decide)]; rfl
  · rw [finish_get _ _ _ _ _ (by decide) (by decide), hd0 _ (by decide)]; rfl
  · rw [finish_get _ _ _ _ _ (by decide) (by decide)]
    show Dict.get? (if addCR then _ else _) _ = _
    cases addCR
    · rfl
    · exact Dict.get?_set_self _ _ _
  · apply finish_common
    · rw [hd0 _ (by decide)]; rfl
    · rw [hd0 _ (by decide)]; rfl

/-- C75: it raises when one of these fields is an empty list or a list that starts with something other than a string. -/
theorem C75_core_raises (sorted : List Str → List Str) (c : CiteV κ) (idVal : Attr ω) (fullInfo count addCR : Bool) (recs : List (Rec ω κ)) (coreValues : List Str)
    (R : Rec ω κ) (hR : recordOf recs c.key = some R) (tag : Str) (ht : tag ∈ coreValues) (l : List Elem) (hl : R.get tag = .list l)
    (hb : l = [] ∨ ∃ rest, l = .other :: rest) :
    ∃ e, makeNode sorted c idVal true fullInfo .full count (coreDict recs) coreValues false addCR = .error e := by
  obtain ⟨e, he⟩ := infoVals_error R coreValues tag ht l hl hb
  have hlen : coreValues.length ≠ 0 := fun h => by rw [List.length_eq_zero_iff.1 h] at ht; cases ht
  refine ⟨e, ?_⟩
  unfold makeNode
  simp only [if_true, if_pos hlen, coreDict_get, hR, he, Bool.not_false]

/-- C75: with `detailedCoreAttributes` each asked field is an attribute of its own: lists sorted and joined by `'|'`, everything else as it is. Splitting at `'|'` gives
the elements of a list back when none has one. -/
theorem C75_detailed (sorted : List Str → List Str) (hs : ∀ l, (sorted l).Perm l) (c : CiteV κ) (idVal : Attr ω) (fullInfo count addCR : Bool) (recs : List (Rec ω κ))
    (coreValues : List Str) (R : Rec ω κ) (hv : coreValues ≠ []) (hR : recordOf recs c.key = some R)
    (hfree : ∀ tag ∈ coreValues, tag ∉ ["MK-ID".toList, "inCore".toList, "citations".toList, "fullCite".toList, "count".toList])
    (hok : ∀ tag ∈ coreValues, ∀ l, R.get tag = .list l → ∃ ss : List Str, l = ss.map .str) :
    ∃ d, makeNode sorted c idVal true fullInfo .full count (coreDict recs) coreValues true addCR = .ok d ∧ d.get? "MK-ID".toList = some (.str R.id) ∧
      d.get? "inCore".toList = some (.bool true) ∧
      (∀ tag ∈ coreValues, (∀ l, R.get tag ≠ .list l) → d.get? tag = some (.val (R.get tag))) ∧
      (∀ tag ∈ coreValues, ∀ ss : List Str, R.get tag = .list (ss.map .str) → ∃ text, d.get? tag = some (.str text) ∧
        (ss ≠ [] → (∀ s ∈ ss, '|' ∉ s) → (Str.split "|".toList text).Perm ss)) ∧
      d.get? "citations".toList = (if addCR then some (.str (Str.join "|".toList R.cites)) else none) ∧ Common c fullInfo count d := by
  obtain ⟨d0, e1, e2, e3⟩ := detailed_spec sorted R coreValues [("MK-ID".toList, .str R.id)] hok
  let d1 := if addCR then (d0.set "inCore".toList (.bool true)).set "citations".toList (.str (Str.join "|".toList R.cites)) else d0.set "inCore".toList (.bool true)
  have hmk : makeNode sorted c idVal true fullInfo .full count (coreDict recs) coreValues true addCR = .ok (finish c fullInfo count d1) := by
    have hlen : coreValues.length ≠ 0 := fun h => hv (List.length_eq_zero_iff.1 h)
    unfold makeNode
    simp only [if_true, if_pos hlen, coreDict_get, hR, Bool.not_true, Bool.false_eq_true, if_false, e1]
    rfl
  have hd1 : ∀ k, k ≠ "citations".toList → k ≠ "inCore".toList → d1.get? k = d0.get? k := by
    intro k hk hk2
    show Dict.get? (if addCR then _ else _) k = _
    cases addCR
    · exact Dict.get?_set_ne _ _ (Ne.symm hk2)
    · exact (Dict.get?_set_ne _ _ (Ne.symm hk)).trans (Dict.get?_set_ne _ _ (Ne.symm hk2))
  have htag : ∀ tag ∈ coreValues, (finish c fullInfo count d1).get? tag = some (detail sorted (R.get tag)) := by
    intro tag ht
    have hf := hfree tag ht
    simp only [List.mem_cons, List.not_mem_nil, or_false, not_or] at hf
    rw [finish_get _ _ _ _ _ (Ne.symm hf.2.2.2.1) (Ne.symm hf.2.2.2.2), hd1 _ hf.2.2.1 hf.2.1, e2 tag ht]
  have hno : ∀ k, k ∈ ["MK-ID".toList, "inCore".toList, "citations".toList, "fullCite".toList, "count".toList] → k ∉ coreValues := fun k hk hc => hfree k hc hk
  refine ⟨_, hmk, ?_, ?_, ?_, ?_, ?_, ?_⟩
  · rw [finish_get _ _ _ _ _ (by decide) (by decide), hd1 _ (by decide) (by decide), e3 _ (hno _ (by simp))]; rfl
  · rw [finish_get _ _ _ _ _ (by decide) (by decide)]
    show Dict.get? (if addCR then _ else _) _ = _
    cases addCR
    · exact Dict.get?_set_self _ _ _
    · exact (Dict.get?_set_ne _ _ (by decide)).trans (Dict.get?_set_self _ _ _)
  · intro tag ht hl
    rw [htag tag ht]
    cases hg : R.get tag with
    | list l => exact absurd hg (hl l)
    | str s => rfl
    | other o => rfl
    | none => rfl
  · intro tag ht ss hss
    refine ⟨_, (htag tag ht).trans (by rw [hss]; rfl), ?_⟩
    intro hne hbar
    rw [filterMap_str]
    have hsne : sorted ss ≠ [] := by
      intro e
      have := (hs ss).length_eq
      rw [e] at this
      exact hne (List.length_eq_zero_iff.1 this.symm)
    have := Str.split_join_char '|' (sorted ss) hsne (fun p hp => hbar p ((hs ss).mem_iff.1 hp))
    show (Str.split ['|'] (Str.join ['|'] (sorted ss))).Perm ss
    rw [this]
    exact hs ss
  · rw [finish_get _ _ _ _ _ (by decide) (by decide)]
    show Dict.get? (if addCR then _ else _) _ = _
    cases addCR
    · exact ((Dict.get?_set_ne _ _ (by decide)).trans (e3 _ (hno _ (by simp)))).trans rfl
    · exact Dict.get?_set_self _ _ _
  · apply finish_common
    · rw [hd1 _ (by decide) (by decide), e3 _ (hno _ (by simp))]; rfl
    · rw [hd1 _ (by decide) (by decide), e3 _ (hno _ (by simp))]; rfl

/-- The parts of a citation after its id: those that are there and not empty. -/
def parts (c : CiteV κ) : List Str := c.extras.filterMap (fun o => o.bind (fun s => if s = [] then none else some s))

/-- C75: a node for any other citation says so, and its information is the citation's id and the other parts that it has. -/
theorem C75_outside (sorted : List Str → List Str) (c : CiteV κ) (idVal : Attr ω) (fullInfo count addCR det : Bool) (recs : List (Rec ω κ)) (coreValues : List Str)
    (hv : coreValues ≠ []) (hR : recordOf recs c.key = none) :
    ∃ d, makeNode sorted c idVal true fullInfo .full count (coreDict recs) coreValues det addCR = .ok d ∧ d.get? "MK-ID".toList = some (.str "None".toList) ∧
      d.get? "inCore".toList = some (.bool false) ∧ d.get? "info".toList = some (.str (Str.join ", ".toList (c.id :: parts c))) ∧
      d.get? "citations".toList = (if addCR then some (.str []) else none) ∧ Common c fullInfo count d := by
  have hab : allButDOI c = Str.join ", ".toList (c.id :: parts c) := by
    unfold allButDOI parts
    have hf : (fun (o : Option Str) => o.bind (fun s => if s.length ≠ 0 then some s else none)) = (fun o => o.bind (fun s => if s = [] then none else some s)) := by
      funext o
      cases o with
      | none => rfl
      | some s => cases s <;> simp
    rw [hf]
    dsimp only
    generalize c.extras.filterMap (fun o => o.bind (fun s => if s = [] then none else some s)) = l
    cases l with
    | nil => rfl
    | cons a l => rw [if_pos (by simp), Str.join_cons _ c.id (a :: l) (by simp)]
  let d0 : Dict Str (Attr ω) := [("MK-ID".toList, .str "None".toList), ("info".toList, .str (allButDOI c)), ("inCore".toList, .bool false)]
  let d1 := if addCR then d0.set "citations".toList (.str []) else d0
  have hmk : makeNode sorted c idVal true fullInfo .full count (coreDict recs) coreValues det addCR = .ok (finish c fullInfo count d1) := by
    have hlen : coreValues.length ≠ 0 := fun h => hv (List.length_eq_zero_iff.1 h)
    unfold makeNode
    simp only [if_true, if_pos hlen, coreDict_get, hR]
    rfl
  refine ⟨_, hmk, ?_, ?_, ?_, ?_, ?_⟩
  · rw [finish_get _ _ _ _ _ (by decide) (by decide)]; cases addCR <;> rfl
  · rw [finish_get _ _ _ _ _ (by decide) (by decide)]; cases addCR <;> rfl
  · rw [finish_get _ _ _ _ _ (by decide) (by decide), ← hab]; cases addCR <;> rfl
  · rw [finish_get _ _ _ _ _ (by decide) (by decide)]; cases addCR <;> rfl
  · apply finish_common <;> cases addCR <;> rfl

/-- C75: for the other types of node the information is the full name of the journal, the original citation or the name of the node itself; without `nodeInfo` there is none. -/
theorem C75_other (sorted : List Str → List Str) (c : CiteV κ) (idVal : Attr ω) (nodeInfo fullInfo count addCR det : Bool) (ty : NodeType) (hty : ty ≠ .full) (core : Dict κ (Rec ω κ))
    (coreValues : List Str) :
    ∃ d, makeNode sorted c idVal nodeInfo fullInfo ty count core coreValues det addCR = .ok d ∧ Common c fullInfo count d ∧
      d.get? "info".toList = if nodeInfo then some (match ty with
        | .journal => .str (c.journal.getD "None".toList)
        | .original => .str c.text
        | _ => idVal) else none := by
  cases nodeInfo with
  | false =>
    refine ⟨finish c fullInfo count [], by cases ty <;> rfl, finish_common _ _ _ _ rfl rfl, ?_⟩
    rw [finish_get _ _ _ _ _ (by decide) (by decide)]; rfl
  | true =>
    cases ty with
    | full => exact absurd rfl hty
    | journal =>
      refine ⟨finish c fullInfo count [("info".toList, .str (c.journal.getD "None".toList))], ?_, finish_common _ _ _ _ rfl rfl, ?_⟩
      · unfold makeNode finish
        cases c.journal <;> rfl
      · rw [finish_get _ _ _ _ _ (by decide) (by decide)]; rfl
    | original =>
      refine ⟨finish c fullInfo count [("info".toList, .str c.text)], rfl, finish_common _ _ _ _ rfl rfl, ?_⟩
      rw [finish_get _ _ _ _ _ (by decide) (by decide)]; rfl
    | author =>
      refine ⟨finish c fullInfo count [("info".toList, idVal)], rfl, finish_common _ _ _ _ rfl rfl, ?_⟩
      rw [finish_get _ _ _ _ _ (by decide) (by decide)]; rfl
    | year =>
      refine ⟨finish c fullInfo count [("info".toList, idVal)], rfl, finish_common _ _ _ _ rfl rfl, ?_⟩
      rw [finish_get _ _ _ _ _ (by decide) (by decide)]; rfl

end

/-! ## Concrete cases -/

/-- The tags of `detailedCore = True` (recordCollection.py:1145, 1255). -/
def defaultCore : List Str := ["id".toList, "authorsFull".toList, "year".toList, "title".toList, "journal".toList, "volume".toList, "beginningPage".toList]

/-- A record of one author from a year. -/
def exRec (year : Nat) : Rec Nat Nat where
  id := "WOS:1".toList
  get t := if t = "id".toList then .str "WOS:1".toList else if t = "authorsFull".toList then .list [.str "Doe, Jane".toList, .str "Roe, R".toList]
    else if t = "year".toList then .other year else if t = "title".toList then .str "On graphs, and trees".toList else .none
  cites := ["A, 1990, J".toList, "B, 1991, K".toList]
  own := 1

private def exC (k : Nat) : CiteV Nat := ⟨k, "Doe J, 1999, J GRAPHS".toList, "DOE J, 1999, J GRAPHS, V4".toList, [none, some "V4".toList, none, some [], none], some "Journal of Graphs".toList⟩

/-- C75: the year is among the values asked for by `detailedCore = True`, but numbers are left out: two records of different years say the same. -/
theorem C75_year_left_out : makeNode id (exC 1) (.num 0) true false .full true (coreDict [exRec 1999]) defaultCore false false =
      makeNode id (exC 1) (.num 0) true false .full true (coreDict [exRec 2004]) defaultCore false false ∧
    (makeNode id (exC 1) (.num 0) true false .full true (coreDict [exRec 1999]) defaultCore false false).toOption.bind (fun d => Dict.get? d "info".toList) =
      some (.str "WOS:1, Doe Jane, On graphs and trees".toList) := by
  constructor
  · rfl
  · decide +kernel

example : recordOf [exRec 1999] (exC 1).key = some (exRec 1999) ∧
    ∀ tag ∈ defaultCore, ∀ l, (exRec 1999).get tag = .list l → ∃ s rest, l = .str s :: rest := by
  refine ⟨rfl, ?_⟩
  intro tag ht l hl
  simp only [defaultCore, List.mem_cons, List.not_mem_nil, or_false] at ht
  rcases ht with rfl | rfl | rfl | rfl | rfl | rfl | rfl
  · cases hl
  · exact ⟨_, _, (RVal.list.inj hl).symm⟩
  all_goals cases hl

example : (makeNode id (exC 1) (.num 0) true true .full true (coreDict [exRec 1999]) defaultCore true true).toOption.bind (fun d => Dict.get? d "authorsFull".toList) =
    some (.str "Doe, Jane|Roe, R".toList) := by decide +kernel
example : (makeNode id (exC 2) (.num 0) true true .full true (coreDict [exRec 1999]) defaultCore true true).toOption.bind (fun d => Dict.get? d "info".toList) =
    some (.str "Doe J, 1999, J GRAPHS, V4".toList) := by decide +kernel
example : recordOf [exRec 1999] (exC 2).key = none := rfl

end Verif.Props.NodeInfo
