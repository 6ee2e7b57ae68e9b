import Verif.Props.GraphTnet
import Verif.Spec.TnetText
import Verif.Py.StrOps
import Verif.Py.Lines

/-! # C42: the text of tnet files, also for multigraphs and with times -/
set_option autoImplicit false
set_option linter.unusedSectionVars false
set_option linter.unusedSimpArgs false
namespace Verif.Props.TnetText
open Verif.Py Verif.Py.Lines Verif.Py.Graph Verif.Model.GraphHelpers Verif.Model.TnetText Verif.Spec Verif.Spec.TnetText

variable {ν κ : Type} [DecidableEq ν]

/-- The line of an edge. -/
def line (showKey : κ → Str) (modeName : String) (time weighted : Bool) (ws : String) (m1 : Val) (g : KGraph ν κ)
    (e : (ν × ν × κ) × Attrs) : Str :=
  Str.join [' '] ((if time then [quoted (showKey e.1.2.2)] else []) ++ wordsOf modeName weighted ws m1 valText g e) ++ ['\n']

/-- An edge that can be written. -/
def Ok (modeName : String) (weighted : Bool) (ws : String) (g : KGraph ν κ) (e : (ν × ν × κ) × Attrs) : Prop :=
  modeOf modeName (bare g) e.1.1 ≠ modeOf modeName (bare g) e.1.2.1 ∧ (weighted = true → (e.2.get? ws).isSome)

theorem tnetLines_spec (showKey : κ → Str) (modeName : String) (time weighted : Bool) (idx ws : String) (g : KGraph ν κ)
    (nodes : List (ν × Attrs)) (m1 m2 : Val) (s : List ν) (hm12 : m1 ≠ m2)
    (hs : ∀ n, (bare g).hasNode n = true → (n ∈ s ↔ modeOf modeName (bare g) n = some m1))
    (hmode : ∀ n, (bare g).hasNode n = true → modeOf modeName (bare g) n = some m1 ∨ modeOf modeName (bare g) n = some m2)
    (hid : ∀ n, (bare g).hasNode n = true → (Dict.get? nodes n).bind (·.get? idx) = some (.num (tnetId (bare g) n)))
    (l : List ((ν × ν × κ) × Attrs)) (hl : ∀ e ∈ l, (bare g).hasNode e.1.1 = true ∧ (bare g).hasNode e.1.2.1 = true) (text : Str) :
    ((∀ e ∈ l, Ok modeName weighted ws g e) ∧
      tnetLines showKey time weighted idx ws nodes s l text =
        (text ++ (l.map (line showKey modeName time weighted ws m1 g)).flatten, none)) ∨
    ((∃ e ∈ l, ¬ Ok modeName weighted ws g e) ∧ (tnetLines showKey time weighted idx ws nodes s l text).2 ≠ none) := by
  induction l generalizing text with
  | nil => left; simp [tnetLines]
  | cons e l ih =>
    obtain ⟨hu, hv⟩ := hl e (by simp)
    have ih := ih (fun e he => hl e (by simp [he]))
    have hends : tnetEnds s e.1.1 e.1.2.1 = if modeOf modeName (bare g) e.1.1 = modeOf modeName (bare g) e.1.2.1 then none
        else if modeOf modeName (bare g) e.1.1 = some m1 then some (e.1.1, e.1.2.1) else some (e.1.2.1, e.1.1) := by
      unfold tnetEnds
      have h1 := hs _ hu
      have h2 := hs _ hv
      rcases hmode _ hu with a | a <;> rcases hmode _ hv with b | b <;> rw [a] at h1 <;> rw [b] at h2 <;>
        simp [a, b, hm12, hm12.symm] at h1 h2 ⊢ <;> simp [h1, h2]
    by_cases hok : Ok modeName weighted ws g e
    · have hne := hok.1
      have hstep : tnetLines showKey time weighted idx ws nodes s (e :: l) text =
          tnetLines showKey time weighted idx ws nodes s l (text ++ line showKey modeName time weighted ws m1 g e) := by
        conv_lhs => unfold tnetLines
        rw [hends, if_neg hne]
        have hw := hok.2
        unfold line wordsOf timeText quoted
        by_cases ha : modeOf modeName (bare g) e.1.1 = some m1
        · simp only [ha, if_true, hid _ hu, hid _ hv]
          cases weighted with
          | false => cases time <;> simp [Str.join, valText, showInt]
          | true =>
            obtain ⟨w, hw⟩ := Option.isSome_iff_exists.1 (hw rfl)
            cases time <;> simp [hw, Str.join, valText, showInt]
        · simp only [ha, if_false, hid _ hu, hid _ hv]
          cases weighted with
          | false => cases time <;> simp [Str.join, valText, showInt]
          | true =>
            obtain ⟨w, hw⟩ := Option.isSome_iff_exists.1 (hw rfl)
            cases time <;> simp [hw, Str.join, valText, showInt]
      rw [hstep]
      rcases ih (text ++ line showKey modeName time weighted ws m1 g e) with ⟨h1, h2⟩ | ⟨⟨e', h1, h1'⟩, h2⟩
      · left
        refine ⟨?_, by rw [h2]; simp⟩
        intro e' he'
        rcases List.mem_cons.1 he' with rfl | he'
        · exact hok
        · exact h1 e' he'
      · right; exact ⟨⟨e', by simp [h1], h1'⟩, h2⟩
    · right
      refine ⟨⟨e, by simp, hok⟩, ?_⟩
      unfold tnetLines
      rw [hends]
      by_cases hne : modeOf modeName (bare g) e.1.1 = modeOf modeName (bare g) e.1.2.1
      · rw [if_pos hne]; simp
      · rw [if_neg hne]
        have hw : weighted = true ∧ e.2.get? ws = none := by
          unfold Ok at hok
          simp only [ne_eq, hne, not_false_iff, true_and] at hok
          cases weighted with
          | false => simp at hok
          | true => simpa using hok
        by_cases ha : modeOf modeName (bare g) e.1.1 = some m1 <;> simp [ha, hid _ hu, hid _ hv, hw.1, hw.2]

theorem bare_wf (g : KGraph ν κ) (hg : TnetText.WF g) : (bare g).WF :=
  ⟨hg.1, by simp [bare], by simp [bare]⟩

theorem hasNode_bare (g : KGraph ν κ) (n : ν) : (bare g).hasNode n = true ↔ n ∈ g.nodes.map Prod.fst := by
  have := Dict.mem_keys_iff (d := g.nodes) (a := n)
  unfold Dict.keys at this
  rw [this]; rfl

theorem ids (idx : String) (g : KGraph ν κ) (n : ν) (hn : (bare g).hasNode n = true) :
    (Dict.get? (numbered idx g.nodes 1) n).bind (·.get? idx) = some (.num (tnetId (bare g) n)) := by
  rw [get?_numbered]
  unfold hasNode node? at hn
  obtain ⟨a, ha⟩ := Option.isSome_iff_exists.1 hn
  have ha' : Dict.get? g.nodes n = some a := ha
  simp [ha', tnetId, bare]

/-- **C42**, for graphs of every class and with `timeString`: the call succeeds exactly when the graph has exactly two modes (the requested source
mode among them), it is a multigraph if times are asked for, every edge joins nodes of different modes and, for a weighted file, every edge
has a weight. -/
theorem C42_text_succeeds (showKey : κ → Str) (modeName : String) (weighted : Bool) (source : Option Val) (time : Option String)
    (idx ws : String) (g : KGraph ν κ) (hg : TnetText.WF g) :
    (writeTnet showKey modeName weighted source time idx ws g).2.2 = none ↔
      (∃ m1 m2, TwoMode modeName source (bare g) m1 m2) ∧ (time ≠ none → g.multi = true) ∧
      ∀ e ∈ g.edges, modeOf modeName (bare g) e.1.1 ≠ modeOf modeName (bare g) e.1.2.1 ∧ (weighted = true → (e.2.get? ws).isSome) := by
  obtain ⟨hiff, hfwd⟩ := tnet_nodes_iff modeName idx source (bare g) (bare_wf g hg)
  by_cases hT : ∃ m1 m2, TwoMode modeName source (bare g) m1 m2
  · obtain ⟨m1, m2, hT⟩ := hT
    obtain ⟨s, h1, h2⟩ := hfwd m1 m2 hT
    have h1 : tnetNodes modeName idx g.nodes 1 source.toList [] = (numbered idx g.nodes 1, .ok ([m1, m2], s)) := h1
    have hl : ∀ e ∈ g.edges, (bare g).hasNode e.1.1 = true ∧ (bare g).hasNode e.1.2.1 = true :=
      fun e he => ⟨(hasNode_bare g _).2 (hg.2 e he).1, (hasNode_bare g _).2 (hg.2 e he).2⟩
    unfold writeTnet
    rw [h1]
    simp only [List.length_cons, List.length_nil, ne_eq, not_true_eq_false, if_false]
    by_cases ht : (time.isSome && !g.multi) = true
    · rw [if_pos ht]
      simp only [Bool.and_eq_true, Bool.not_eq_true'] at ht
      cases time with
      | none => simp at ht
      | some t => simp [ht.2]
    · rw [if_neg ht]
      have htm : ¬ time = none → g.multi = true := by
        cases time with
        | none => simp
        | some t => simpa using ht
      rcases tnetLines_spec showKey modeName time.isSome weighted idx ws g (numbered idx g.nodes 1) m1 m2 s hT.1 h2 hT.2.1
        (ids idx g) g.edges hl [] with ⟨k1, k2⟩ | ⟨⟨e, k1, k1'⟩, k2⟩
      · rw [k2]; simp only [true_iff]; exact ⟨⟨m1, m2, hT⟩, htm, k1⟩
      · simp only [k2, false_iff]
        rintro ⟨_, _, h⟩; exact k1' (h e k1)
  · simp only [hT, false_and, iff_false]
    unfold writeTnet
    cases hr : (tnetNodes modeName idx g.nodes 1 source.toList []).2 with
    | error e => simp [hr]
    | ok r =>
      obtain ⟨modes, s⟩ := r
      have : modes.length ≠ 2 := fun h => hT (hiff.2 ⟨modes, s, hr, h⟩)
      simp [hr, this]

/-- **C42**, for graphs of every class and with `timeString`: on success every node has gained its number and the text of the file is one line
per edge, in order, whose words, with a space between them, are the key of the edge in quotes (when `timeString` is given), the number of
the end of the first mode, that of the other end, and the weight when asked for. -/
theorem C42_text (showKey : κ → Str) (modeName : String) (weighted : Bool) (source : Option Val) (time : Option String)
    (idx ws : String) (g : KGraph ν κ) (hg : TnetText.WF g) (m1 m2 : Val) (hT : TwoMode modeName source (bare g) m1 m2)
    (hok : (writeTnet showKey modeName weighted source time idx ws g).2.2 = none) :
    (∀ n, Dict.get? (writeTnet showKey modeName weighted source time idx ws g).1 n =
      (Dict.get? g.nodes n).map (fun a => a.set idx (.num (tnetId (bare g) n)))) ∧
    (writeTnet showKey modeName weighted source time idx ws g).2.1 = some (g.edges.map (fun e =>
      Str.join [' '] ((if time.isSome then [quoted (showKey e.1.2.2)] else []) ++ wordsOf modeName weighted ws m1 valText g e) ++
        ['\n'])).flatten := by
  obtain ⟨s, h1, h2⟩ := (tnet_nodes_iff modeName idx source (bare g) (bare_wf g hg)).2 m1 m2 hT
  have h1 : tnetNodes modeName idx g.nodes 1 source.toList [] = (numbered idx g.nodes 1, .ok ([m1, m2], s)) := h1
  have hl : ∀ e ∈ g.edges, (bare g).hasNode e.1.1 = true ∧ (bare g).hasNode e.1.2.1 = true :=
    fun e he => ⟨(hasNode_bare g _).2 (hg.2 e he).1, (hasNode_bare g _).2 (hg.2 e he).2⟩
  have htime := ((C42_text_succeeds showKey modeName weighted source time idx ws g hg).1 hok).2.1
  have ht : ¬ (time.isSome && !g.multi) = true := by
    cases time with
    | none => simp
    | some t => simp [htime]
  unfold writeTnet at hok ⊢
  rw [h1] at hok ⊢
  simp only [List.length_cons, List.length_nil, ne_eq, not_true_eq_false, if_false, if_neg ht] at hok ⊢
  refine ⟨?_, ?_⟩
  · intro n; rw [get?_numbered]; rfl
  · rcases tnetLines_spec showKey modeName time.isSome weighted idx ws g (numbered idx g.nodes 1) m1 m2 s hT.1 h2 hT.2.1
      (ids idx g) g.edges hl [] with ⟨k1, k2⟩ | ⟨⟨e, k1, k1'⟩, k2⟩
    · rw [k2]; rfl
    · exact absurd hok k2

theorem digits_no (c : Char) (hc : isDig c = false) (n : Nat) : c ∉ showNat n := by
  intro h; rw [showNat_digits n c h] at hc; cases hc

theorem showInt_no (c : Char) (hc : isDig c = false) (hd : c ≠ '-') (i : Int) : c ∉ showInt i := by
  cases i with
  | ofNat n => exact digits_no c hc n
  | negSucc n =>
    simp only [showInt, List.mem_cons, not_or]
    exact ⟨hd, digits_no c hc (n + 1)⟩

/-- **C42**, reading the file. When the weights are numbers, the lines of a file without times, cut at the spaces and read as numbers, give
for each edge, in order, the numbers of its ends, that of the first mode in front, and its weight: no two graphs with different edges share a file. -/
theorem C42_text_read (showKey : κ → Str) (modeName : String) (weighted : Bool) (source : Option Val) (idx ws : String) (g : KGraph ν κ)
    (hg : TnetText.WF g) (m1 m2 : Val) (hT : TwoMode modeName source (bare g) m1 m2)
    (hw : weighted = true → ∀ e ∈ g.edges, ∃ n, e.2.get? ws = some (.num n))
    (hok : (writeTnet showKey modeName weighted source none idx ws g).2.2 = none) :
    ∃ text, (writeTnet showKey modeName weighted source none idx ws g).2.1 = some text ∧
      (fileLines text).map (fun l => (Str.split [' '] l.dropLast).map readInt) = g.edges.map (fun e =>
        [((tnetId (bare g) (if modeOf modeName (bare g) e.1.1 = some m1 then e.1.1 else e.1.2.1) : Nat) : Int),
         ((tnetId (bare g) (if modeOf modeName (bare g) e.1.1 = some m1 then e.1.2.1 else e.1.1) : Nat) : Int)] ++
        (if weighted then (match e.2.get? ws with | some (.num n) => [n] | _ => []) else [])) := by
  refine ⟨_, (C42_text showKey modeName weighted source none idx ws g hg m1 m2 hT hok).2, ?_⟩
  have hnl : ∀ e ∈ g.edges, ∀ c : Char, isDig c = false → c ≠ '-' → ∀ w ∈ wordsOf modeName weighted ws m1 valText g e, c ∉ w := by
    intro e he c hc hd w hwm
    unfold wordsOf at hwm
    simp only [List.mem_append, List.mem_cons, List.not_mem_nil, or_false] at hwm
    rcases hwm with (rfl | rfl) | hwm
    · exact digits_no c hc _
    · exact digits_no c hc _
    · split at hwm
      · rename_i hwt
        obtain ⟨n, hn⟩ := hw hwt e he
        simp only [hn, Option.toList_some, List.map_cons, List.map_nil, List.mem_cons, List.not_mem_nil, or_false] at hwm
        subst hwm
        exact showInt_no c hc hd n
      · simp at hwm
  have hjoin : ∀ (c : Char) (l : List Str), c ≠ ' ' → (∀ w ∈ l, c ∉ w) → c ∉ Str.join [' '] l := by
    intro c l hc
    induction l with
    | nil => simp [Str.join]
    | cons w l ih =>
      intro h
      cases l with
      | nil => simpa [Str.join] using h w (by simp)
      | cons w' l =>
        rw [Str.join_cons _ _ _ (by simp)]
        simp only [List.mem_append, List.mem_cons, List.not_mem_nil, or_false, not_or]
        exact ⟨⟨h w (by simp), hc⟩, ih (fun x hx => h x (by simp [hx]))⟩
  unfold fileLines
  rw [univ_id]
  swap
  · intro h
    simp only [List.mem_flatten, List.mem_map] at h
    obtain ⟨l, ⟨e, he, rfl⟩, h⟩ := h
    simp only [List.mem_append, List.mem_cons, List.not_mem_nil, or_false] at h
    rcases h with h | h
    · exact hjoin '\r' _ (by decide) (by simpa using hnl e he '\r' (by decide) (by decide)) h
    · exact absurd h (by decide)
  have hc : Complete (g.edges.map (fun e => Str.join [' '] ((if (none : Option String).isSome then [quoted (showKey e.1.2.2)] else []) ++
      wordsOf modeName weighted ws m1 valText g e) ++ ['\n'])) := by
    intro l hl
    obtain ⟨e, he, rfl⟩ := List.mem_map.1 hl
    exact ⟨_, rfl, hjoin '\n' _ (by decide) (by simpa using hnl e he '\n' (by decide) (by decide))⟩
  have hlines := lines_flatten _ hc []
  simp only [List.append_nil, lines] at hlines
  rw [hlines, List.map_map]
  apply List.map_congr_left
  intro e he
  simp only [Function.comp, List.dropLast_concat, Option.isSome_none, Bool.false_eq_true, if_false, List.nil_append]
  rw [Str.split_join_char ' ' _ (by simp [wordsOf]) (hnl e he ' ' (by decide) (by decide))]
  have hr : ∀ n : Nat, readInt (showNat n) = n := fun n => readInt_showInt (.ofNat n)
  unfold wordsOf
  cases weighted with
  | false => simp [hr]
  | true =>
    obtain ⟨n, hn⟩ := hw rfl e he
    simp [hr, hn, valText, readInt_showInt]

/-- **C42, disagreement with the documentation.** The documented time column holds the attribute `timeString` of an edge. That name is never
used: any other one gives the same file, in which the keys of the edges are the times, and a graph that is no multigraph is refused with
`TypeError`, the file being left empty and the nodes numbered. -/
theorem C42_time_is_key (showKey : κ → Str) (modeName : String) (weighted : Bool) (source : Option Val) (t t' idx ws : String)
    (g : KGraph ν κ) (hg : TnetText.WF g) :
    writeTnet showKey modeName weighted source (some t) idx ws g = writeTnet showKey modeName weighted source (some t') idx ws g ∧
    (g.multi = false → (∃ m1 m2, TwoMode modeName source (bare g) m1 m2) →
      (writeTnet showKey modeName weighted source (some t) idx ws g).2 = (some [], some .typeError) ∧
      ∀ n, Dict.get? (writeTnet showKey modeName weighted source (some t) idx ws g).1 n =
        (Dict.get? g.nodes n).map (fun a => a.set idx (.num (tnetId (bare g) n)))) := by
  refine ⟨rfl, ?_⟩
  rintro hm ⟨m1, m2, hT⟩
  obtain ⟨s, h1, -⟩ := (tnet_nodes_iff modeName idx source (bare g) (bare_wf g hg)).2 m1 m2 hT
  have h1 : tnetNodes modeName idx g.nodes 1 source.toList [] = (numbered idx g.nodes 1, .ok ([m1, m2], s)) := h1
  unfold writeTnet
  rw [h1]
  simp only [hm, List.length_cons, List.length_nil, ne_eq, not_true_eq_false, if_false, Option.isSome_some, Bool.not_false,
    Bool.and_self, if_true, true_and]
  intro n; rw [get?_numbered]; rfl

/-- Two papers and two authors, one pair joined twice. -/
def exMulti : KGraph Nat Str :=
  ⟨true, [(1, [("t", .str "P")]), (2, [("t", .str "A")]), (3, [("t", .str "A")]), (4, [("t", .str "P")])],
    [((1, 2, "1998".toList), [("weight", .num 3), ("date", .str "1970")]), ((1, 2, "2001".toList), [("weight", .num (-1))]),
      ((3, 4, "1999".toList), [("weight", .num 12)])]⟩

example : TnetText.WF exMulti ∧ TwoMode "t" (some (.str "A")) (bare exMulti) (.str "A") (.str "P") ∧
    (writeTnet id "t" true (some (.str "A")) (some "date") "tnet-ID" "weight" exMulti).2 =
      (some "\"1998\" 2 1 3\n\"2001\" 2 1 -1\n\"1999\" 3 4 12\n".toList, none) ∧
    (writeTnet id "t" true (some (.str "A")) none "tnet-ID" "weight" exMulti).2 = (some "2 1 3\n2 1 -1\n3 4 12\n".toList, none) ∧
    (writeTnet id "t" true (some (.str "A")) (some "date") "tnet-ID" "weight" { exMulti with multi := false }).2 =
      (some [], some .typeError) := by
  refine ⟨⟨by decide, by decide⟩, ⟨by decide, ?_, ⟨1, by decide⟩, rfl⟩, by decide, by decide, by decide⟩
  intro n hn
  have : n ∈ exMulti.nodes.map Prod.fst := (hasNode_bare exMulti n).1 hn
  simp only [exMulti, List.map_cons, List.map_nil, List.mem_cons, List.not_mem_nil, or_false] at this
  rcases this with rfl | rfl | rfl | rfl <;> decide

end Verif.Props.TnetText
