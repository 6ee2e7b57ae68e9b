import Verif.Model.GraphStats

/-! # C76: the statistics of a graph -/
set_option autoImplicit false
set_option linter.unusedSimpArgs false
namespace Verif.Props.GraphStats
open Verif.Py Verif.Model.GraphStats

section
variable {φ ν : Type} [DecidableEq ν]

/-! ## Specification -/

/-- The number of nodes no edge touches. -/
def lonely (G : Graph ν) : Nat := (G.nodes.filter (fun n => ∀ e ∈ G.edges, e.1 ≠ n ∧ e.2 ≠ n)).length

/-- The number of edges from a node to itself. -/
def loops (G : Graph ν) : Nat := G.edges.countP (fun e => e.1 = e.2)

/-- The six statistics in the order of the output: name, value, text in a sentence, text on a line. -/
def table (fmtF : φ → Str) (density transitivity : φ) (G : Graph ν) : List (Str × Val φ × Str × Str) :=
  [("nodes".toList, .int G.nodes.length, fmtG G.nodes.length ++ " nodes".toList, "Nodes: ".toList ++ fmtG G.nodes.length),
   ("edges".toList, .int G.edges.length, fmtG G.edges.length ++ " edges".toList, "Edges: ".toList ++ fmtG G.edges.length),
   ("isolates".toList, .int (lonely G), fmtG (lonely G) ++ " isolates".toList, "Isolates: ".toList ++ fmtG (lonely G)),
   ("loops".toList, .int (loops G), fmtG (loops G) ++ " self loops".toList, "Self loops: ".toList ++ fmtG (loops G)),
   ("density".toList, .float density, "a density of ".toList ++ fmtF density, "Density: ".toList ++ fmtF density),
   ("transitivity".toList, .float transitivity, "a transitivity of ".toList ++ fmtF transitivity, "Transitivity: ".toList ++ fmtF transitivity)]

/-- The statistics that are asked for, each once. -/
def asked (fmtF : φ → Str) (density transitivity : φ) (G : Graph ν) (stats : List Str) : List (Str × Val φ × Str × Str) :=
  (table fmtF density transitivity G).filter (fun r => r.1 ∈ stats)

/-- Words in a list: commas between them and `and` before the last. -/
def listing : List Str → Str
  | [] => []
  | [x] => x
  | [x, y] => x ++ " and ".toList ++ y
  | x :: y :: z :: l => x ++ ", ".toList ++ listing (y :: z :: l)

/-! ## Helpers -/

theorem isolates_length (G : Graph ν) : (isolates G).length = lonely G := by
  unfold isolates lonely
  congr 1
  apply List.filter_congr
  intro n _
  rw [decide_eq_decide]
  have : ∀ l : List Nat, l.sum = 0 ↔ ∀ x ∈ l, x = 0 := by
    intro l
    induction l with
    | nil => simp
    | cons a l ih => rw [List.sum_cons, Nat.add_eq_zero_iff, ih]; simp
  rw [this]
  constructor
  · intro h e he
    have := h _ (List.mem_map_of_mem he)
    by_cases h1 : e.1 = n <;> by_cases h2 : e.2 = n <;> simp [h1, h2] at this ⊢
  · intro h x hx
    obtain ⟨e, he, rfl⟩ := List.mem_map.1 hx
    obtain ⟨h1, h2⟩ := h e he
    simp [h1, h2]

theorem loops_length (G : Graph ν) : (selfLoops G).length = loops G := by
  unfold selfLoops loops
  rw [List.countP_eq_length_filter]

theorem strBlock_eq (stats : List Str) (sentence : Bool) (name before after line text : Str) (acc : List Str) :
    strBlock stats sentence name before after line text acc = acc ++ (if name ∈ stats then [if sentence then before ++ text ++ after else line ++ text] else []) := by
  unfold strBlock
  by_cases h : name ∈ stats
  · rw [if_pos h, if_pos h]; cases sentence <;> rfl
  · rw [if_neg h, if_neg h, List.append_nil]

theorem strs_eq (fmtF : φ → Str) (density transitivity : φ) (G : Graph ν) (stats : List Str) (sentence : Bool) :
    strBlock stats sentence "transitivity".toList "a transitivity of ".toList [] "Transitivity: ".toList (fmtF transitivity)
      (strBlock stats sentence "density".toList "a density of ".toList [] "Density: ".toList (fmtF density)
        (strBlock stats sentence "loops".toList [] " self loops".toList "Self loops: ".toList (fmtG (selfLoops G).length)
          (strBlock stats sentence "isolates".toList [] " isolates".toList "Isolates: ".toList (fmtG (isolates G).length)
            (strBlock stats sentence "edges".toList [] " edges".toList "Edges: ".toList (fmtG G.edges.length)
              (strBlock stats sentence "nodes".toList [] " nodes".toList "Nodes: ".toList (fmtG G.nodes.length) []))))) =
    (asked fmtF density transitivity G stats).map (fun r => if sentence then r.2.2.1 else r.2.2.2) := by
  rw [isolates_length, loops_length]
  simp only [strBlock_eq]
  unfold asked table
  generalize "nodes".toList = n1
  generalize "edges".toList = n2
  generalize "isolates".toList = n3
  generalize "loops".toList = n4
  generalize "density".toList = n5
  generalize "transitivity".toList = n6
  have step : ∀ (n : Str) (x : Str × Val φ × Str × Str) (l : List (Str × Val φ × Str × Str)), x.1 = n →
      (List.filter (fun r => decide (r.1 ∈ stats)) (x :: l)).map (fun r => if sentence then r.2.2.1 else r.2.2.2) =
        (if n ∈ stats then [if sentence then x.2.2.1 else x.2.2.2] else []) ++ (l.filter (fun r => decide (r.1 ∈ stats))).map (fun r => if sentence then r.2.2.1 else r.2.2.2) := by
    intro n x l hx
    subst hx
    by_cases h : x.1 ∈ stats <;> simp [h]
  rw [step n1 _ _ rfl, step n2 _ _ rfl, step n3 _ _ rfl, step n4 _ _ rfl, step n5 _ _ rfl, step n6 _ _ rfl]
  simp only [List.nil_append, List.append_nil, List.append_assoc, List.filter_nil, List.map_nil]

/-- The end of the sentence as the code writes it. -/
theorem listing_eq (x y : Str) (l : List Str) : Str.join ", ".toList (x :: y :: l).dropLast ++ " and ".toList ++ (x :: y :: l).getLast?.getD [] = listing (x :: y :: l) := by
  induction l generalizing x y with
  | nil => rfl
  | cons z l ih =>
    have h1 : (x :: y :: z :: l).dropLast = x :: (y :: z :: l).dropLast := rfl
    have h2 : (x :: y :: z :: l).getLast? = (y :: z :: l).getLast? := by simp [List.getLast?_cons_cons]
    rw [h1, h2, Str.join_cons _ _ _ (by simp), List.append_assoc, List.append_assoc, List.append_assoc, ← List.append_assoc (Str.join _ _), ih]
    simp [listing]

theorem split_lines (l : List Str) (hl : l ≠ []) (h : ∀ p ∈ l, '\n' ∉ p) : Str.split "\n".toList (Str.join "\n".toList l) = l := Str.split_join_char '\n' l hl h

theorem stripZeros_mem (c : Char) (s : Str) (h : c ∈ stripZeros s) : c ∈ s := by
  unfold stripZeros at h
  rw [List.mem_reverse] at h
  exact List.mem_reverse.1 (List.dropWhile_subset _ h)

theorem fmtG_chars (n : Nat) (c : Char) (h : c ∈ fmtG n) : isDig c = true ∨ c = '.' ∨ c = 'E' ∨ c = '+' := by
  unfold fmtG at h
  split at h
  · exact Or.inl (showNat_digits _ c h)
  · dsimp only at h
    generalize (if _ = 1000000 then _ else _ : Nat × Nat) = me at h
    simp only [List.mem_append] at h
    rcases h with ((h | h) | h) | h
    · exact Or.inl (showNat_digits _ c (List.mem_of_mem_take h))
    · split at h
      · rcases List.mem_cons.1 h with h | h
        · exact Or.inr (Or.inl h)
        · exact Or.inl (showNat_digits _ c (List.mem_of_mem_drop (stripZeros_mem _ _ h)))
      · cases h
    · have : c ∈ ['E', '+'] := h
      simp at this
      exact Or.inr (Or.inr this)
    · split at h
      · rcases List.mem_cons.1 h with h | h
        · left; rw [h]; decide
        · exact Or.inl (showNat_digits _ c h)
      · exact Or.inl (showNat_digits _ c h)

theorem fmtG_no_newline (n : Nat) : '\n' ∉ fmtG n := by
  intro h
  rcases fmtG_chars n _ h with h | h | h | h <;> revert h <;> decide

/-! ## C76 -/

/-- C76: asking for anything but the six statistics raises `RuntimeError`; nothing else does. -/
theorem C76_unknown (fmtF : φ → Str) (density transitivity : φ) (G : Graph ν) (stats : List Str) (makeString sentence : Bool) :
    graphStats fmtF density transitivity G stats makeString sentence = .error .runtimeError ↔
      ∃ s ∈ stats, s ∉ ["nodes".toList, "edges".toList, "isolates".toList, "loops".toList, "density".toList, "transitivity".toList] := by
  unfold graphStats
  by_cases h : stats.any (fun s => s ∉ validStats) = true
  · rw [if_pos h]
    simp only [true_iff]
    rw [List.any_eq_true] at h
    obtain ⟨s, h1, h2⟩ := h
    exact ⟨s, h1, of_decide_eq_true h2⟩
  · rw [if_neg h]
    constructor
    · intro he
      cases makeString
      · dsimp only at he
        simp only [Bool.false_eq_true, if_false] at he
        split at he <;> cases he
      · dsimp only at he
        simp only [if_true] at he
        cases sentence
        · cases he
        · simp only [if_true] at he
          split at he <;> cases he
    · rintro ⟨s, h1, h2⟩
      exact absurd (List.any_eq_true.2 ⟨s, h1, decide_eq_true h2⟩) h

/-- C76: with `makeString = False` the result has one value for every name in `stats`, at the same place. -/
theorem C76_tuple (fmtF : φ → Str) (density transitivity : φ) (G : Graph ν) (stats : List Str) (sentence : Bool)
    (h : ∀ s ∈ stats, s ∈ ["nodes".toList, "edges".toList, "isolates".toList, "loops".toList, "density".toList, "transitivity".toList]) :
    ∃ l, graphStats fmtF density transitivity G stats false sentence = .ok (.tuple l) ∧
      List.Forall₂ (fun s v => ∃ r ∈ table fmtF density transitivity G, r.1 = s ∧ r.2.1 = v) stats l := by
  unfold graphStats
  have hv : ¬ stats.any (fun s => s ∉ validStats) = true := by
    intro hc
    obtain ⟨s, h1, h2⟩ := List.any_eq_true.1 hc
    exact (of_decide_eq_true h2) (h s h1)
  rw [if_neg hv]
  simp only [Bool.false_eq_true, if_false]
  rw [isolates_length, loops_length]
  generalize hd : dictBlock stats "transitivity".toList (.float transitivity) _ = d
  have hget : ∀ s ∈ stats, ∃ v, d.get? s = some v ∧ ∃ r ∈ table fmtF density transitivity G, r.1 = s ∧ r.2.1 = v := by
    intro s hs
    have key : ∀ (n : Str) (v : Val φ) (d : Dict Str (Val φ)), (dictBlock stats n v d).get? s = if n = s then some v else d.get? s := by
      intro n v d
      unfold dictBlock
      by_cases hn : n ∈ stats
      · rw [if_pos hn, Dict.get?_set]
      · rw [if_neg hn, if_neg (show ¬ n = s from fun e => hn (e ▸ hs))]
    rw [← hd]
    simp only [key]
    have hm := h s hs
    simp only [List.mem_cons, List.not_mem_nil, or_false] at hm
    rcases hm with rfl | rfl | rfl | rfl | rfl | rfl
    · exact ⟨.int G.nodes.length, by rfl, _, .head _, rfl, rfl⟩
    · exact ⟨.int G.edges.length, by rfl, _, .tail _ (.head _), rfl, rfl⟩
    · exact ⟨.int (lonely G), by rfl, _, .tail _ (.tail _ (.head _)), rfl, rfl⟩
    · exact ⟨.int (loops G), by rfl, _, .tail _ (.tail _ (.tail _ (.head _))), rfl, rfl⟩
    · exact ⟨.float density, by rfl, _, .tail _ (.tail _ (.tail _ (.tail _ (.head _)))), rfl, rfl⟩
    · exact ⟨.float transitivity, by rfl, _, .tail _ (.tail _ (.tail _ (.tail _ (.tail _ (.head _))))), rfl, rfl⟩
  clear hd hv h
  have hmap : ∀ (ss : List Str), (∀ s ∈ ss, ∃ v, d.get? s = some v ∧ ∃ r ∈ table fmtF density transitivity G, r.1 = s ∧ r.2.1 = v) →
      ∃ l, ss.mapM (fun s => d.get? s) = some l ∧ List.Forall₂ (fun s v => ∃ r ∈ table fmtF density transitivity G, r.1 = s ∧ r.2.1 = v) ss l := by
    intro ss
    induction ss with
    | nil => intro _; exact ⟨[], rfl, .nil⟩
    | cons s ss ih =>
      intro hh
      obtain ⟨v, h1, h2⟩ := hh s (by simp)
      obtain ⟨l, h3, h4⟩ := ih fun x hx => hh x (List.mem_cons_of_mem _ hx)
      refine ⟨v :: l, ?_, .cons h2 h4⟩
      rw [List.mapM_cons, h1, h3]; rfl
  obtain ⟨l, h1, h2⟩ := hmap stats hget
  exact ⟨l, by rw [h1], h2⟩

/-- C76: by default each statistic asked for is on a line of its own, in a fixed order, once. -/
theorem C76_lines (fmtF : φ → Str) (hf : ∀ x, '\n' ∉ fmtF x) (density transitivity : φ) (G : Graph ν) (stats : List Str) (hne : stats ≠ [])
    (h : ∀ s ∈ stats, s ∈ ["nodes".toList, "edges".toList, "isolates".toList, "loops".toList, "density".toList, "transitivity".toList]) :
    ∃ text, graphStats fmtF density transitivity G stats true false = .ok (.str text) ∧
      Str.split "\n".toList text = (asked fmtF density transitivity G stats).map (fun r => r.2.2.2) := by
  have hv : ¬ stats.any (fun s => s ∉ validStats) = true := by
    intro hc
    obtain ⟨s, h1, h2⟩ := List.any_eq_true.1 hc
    exact (of_decide_eq_true h2) (h s h1)
  refine ⟨Str.join "\n".toList ((asked fmtF density transitivity G stats).map (fun r => r.2.2.2)), ?_, ?_⟩
  · unfold graphStats
    rw [if_neg hv]
    simp only [if_true]
    rw [strs_eq]
    simp only [Bool.false_eq_true, if_false]
  · apply split_lines
    · cases stats with
      | nil => exact absurd rfl hne
      | cons s stats =>
        have hs := h s (by simp)
        intro hemp
        have hall : ∀ r ∈ table fmtF density transitivity G, r.1 ∉ s :: stats := by
          have hnil : asked fmtF density transitivity G (s :: stats) = [] := List.map_eq_nil_iff.1 hemp
          intro r hr hc
          have : r ∈ asked fmtF density transitivity G (s :: stats) := List.mem_filter.2 ⟨hr, decide_eq_true hc⟩
          rw [hnil] at this
          cases this
        have htab : (table fmtF density transitivity G).map Prod.fst =
            ["nodes".toList, "edges".toList, "isolates".toList, "loops".toList, "density".toList, "transitivity".toList] := rfl
        rw [← htab] at hs
        obtain ⟨r, hr, e⟩ := List.mem_map.1 hs
        exact hall r hr (by rw [e]; simp)
    · intro p hp
      obtain ⟨r, hr, rfl⟩ := List.mem_map.1 hp
      have hr := (List.mem_filter.1 hr).1
      have lab : ∀ (a b : Str), '\n' ∉ a → '\n' ∉ b → '\n' ∉ a ++ b := by
        intro a b ha hb hc
        rcases List.mem_append.1 hc with hc | hc
        · exact ha hc
        · exact hb hc
      unfold table at hr
      simp only [List.mem_cons, List.not_mem_nil, or_false] at hr
      rcases hr with rfl | rfl | rfl | rfl | rfl | rfl
      · exact lab _ _ (by decide) (fmtG_no_newline _)
      · exact lab _ _ (by decide) (fmtG_no_newline _)
      · exact lab _ _ (by decide) (fmtG_no_newline _)
      · exact lab _ _ (by decide) (fmtG_no_newline _)
      · exact lab _ _ (by decide) (hf _)
      · exact lab _ _ (by decide) (hf _)

/-- C76: the sentence lists the statistics asked for in the same order. -/
theorem C76_sentence (fmtF : φ → Str) (density transitivity : φ) (G : Graph ν) (stats : List Str)
    (h : ∀ s ∈ stats, s ∈ ["nodes".toList, "edges".toList, "isolates".toList, "loops".toList, "density".toList, "transitivity".toList]) :
    graphStats fmtF density transitivity G stats true true =
      .ok (.str ("The graph has ".toList ++ listing ((asked fmtF density transitivity G stats).map (fun r => r.2.2.1)))) := by
  have hv : ¬ stats.any (fun s => s ∉ validStats) = true := by
    intro hc
    obtain ⟨s, h1, h2⟩ := List.any_eq_true.1 hc
    exact (of_decide_eq_true h2) (h s h1)
  unfold graphStats
  rw [if_neg hv]
  simp only [if_true]
  rw [strs_eq]
  simp only [if_true]
  generalize (asked fmtF density transitivity G stats).map (fun r => r.2.2.1) = l
  match l with
  | [] => rfl
  | [x] => rfl
  | x :: y :: l =>
    dsimp only
    rw [List.append_assoc, List.append_assoc, ← List.append_assoc (Str.join _ _), listing_eq]

/-- C76: counts below a million are shown exactly. -/
theorem C76_counts_exact (n : Nat) (h : n < 1000000) : readNat (fmtG n) = n ∧ ∀ c ∈ fmtG n, isDig c = true := by
  unfold fmtG
  rw [if_pos h]
  exact ⟨readNat_showNat n, showNat_digits n⟩

/-- C76: larger ones are not: they are shown in scientific notation, with six digits. -/
theorem C76_counts_rounded (n : Nat) (h : 1000000 ≤ n) : 'E' ∈ fmtG n ∧ fmtG n ≠ showNat n := by
  have he : 'E' ∈ fmtG n := by
    unfold fmtG
    rw [if_neg (show ¬ n < 1000000 by omega)]
    dsimp only
    simp only [List.mem_append]
    left; right
    show 'E' ∈ ['E', '+']
    simp
  refine ⟨he, fun e => ?_⟩
  rw [e] at he
  have := showNat_digits n _ he
  revert this
  decide

/-- A number in scientific notation: a digit, a fraction if there is one, and an exponent of two digits or more. -/
def scientific (d : Char) (frac : Str) (e : Nat) : Str :=
  d :: (if frac = [] then [] else '.' :: frac) ++ "E+".toList ++ (if e < 10 then '0' :: showNat e else showNat e)

theorem readNat_append (a b : Str) : readNat (a ++ b) = readNat a * 10 ^ b.length + readNat b := by
  have H : ∀ (b : Str) (x : Nat), b.foldl (fun a c => 10 * a + digitVal c) x = x * 10 ^ b.length + readNat b := by
    intro b
    induction b with
    | nil => intro x; simp [readNat]
    | cons c b ih =>
      intro x
      have e : readNat (c :: b) = digitVal c * 10 ^ b.length + readNat b := by
        show List.foldl _ (10 * 0 + digitVal c) b = _
        rw [ih, Nat.mul_zero, Nat.zero_add]
      rw [List.foldl_cons, ih, e, List.length_cons, Nat.pow_succ, Nat.add_mul]
      rw [Nat.mul_comm 10 x, Nat.mul_assoc, Nat.mul_comm 10, Nat.add_assoc]
  unfold readNat
  rw [List.foldl_append, H]
  rfl

theorem readNat_lt (s : Str) (h : ∀ c ∈ s, isDig c = true) : readNat s < 10 ^ s.length := by
  induction s with
  | nil => simp [readNat]
  | cons c s ih =>
    have h1 := ih (fun d hd => h d (by simp [hd]))
    rw [show c :: s = [c] ++ s from rfl, readNat_append]
    have h2 : readNat [c] ≤ 9 := by
      have := h c (by simp)
      simp only [isDig, decide_eq_true_eq] at this
      simp only [readNat, List.foldl_cons, List.foldl_nil, digitVal]
      have h9 : c.toNat ≤ '9'.toNat := this.2
      have : '9'.toNat = 57 := rfl
      omega
    simp only [List.singleton_append, List.length_cons, Nat.pow_succ]
    have := Nat.mul_le_mul_right (10 ^ s.length) h2
    omega

theorem readNat_zeros (k : Nat) : readNat (List.replicate k '0') = 0 := by
  induction k with
  | zero => rfl
  | succ k ih =>
    rw [List.replicate_succ', readNat_append, ih]
    rfl

theorem stripZeros_spec (s : Str) : ∃ k, s = stripZeros s ++ List.replicate k '0' ∧ (stripZeros s).getLast? ≠ some '0' := by
  unfold stripZeros
  have h1 := List.takeWhile_append_dropWhile (p := (· = '0')) (l := s.reverse)
  have h2 : s.reverse.takeWhile (· = '0') = List.replicate (s.reverse.takeWhile (· = '0')).length '0' := by
    rw [List.eq_replicate_iff]
    refine ⟨rfl, fun c hc => ?_⟩
    have := List.all_eq_true.1 (List.all_takeWhile (p := (· = '0')) (l := s.reverse)) c hc
    simpa using this
  refine ⟨(s.reverse.takeWhile (· = '0')).length, ?_, ?_⟩
  · have := congrArg List.reverse h1
    rw [List.reverse_append, List.reverse_reverse, h2, List.reverse_replicate] at this
    exact this.symm
  · rw [List.getLast?_reverse]
    intro h
    have := List.head?_dropWhile_not (p := (· = '0')) s.reverse
    rw [h] at this
    simp at this

theorem six_digits (m : Nat) (h1 : 100000 ≤ m) (h2 : m < 1000000) :
    ∃ d, d ≠ '0' ∧ isDig d = true ∧ (showNat m).take 1 = [d] ∧ (∀ c ∈ (showNat m).drop 1, isDig c = true) ∧ ((showNat m).drop 1).length = 5 ∧
      readNat (d :: (showNat m).drop 1) = m := by
  have hl : (showNat m).length ≤ 6 := showAux_length (m + 1) m 5 (by omega) (by simpa using h2)
  have hr := readNat_showNat m
  have hd := showNat_digits m
  have hlt := readNat_lt _ hd
  rw [hr] at hlt
  have hg : 6 ≤ (showNat m).length := by
    by_contra hc
    have := Nat.pow_le_pow_right (show 0 < 10 by omega) (show (showNat m).length ≤ 5 by omega)
    omega
  cases hs : showNat m with
  | nil => rw [hs] at hg; simp at hg
  | cons d rest =>
    rw [hs] at hl hg hr hd
    simp only [List.length_cons] at hl hg
    refine ⟨d, ?_, hd d (by simp), rfl, fun c hc => hd c (by simp at hc; simp [hc]), by simp; omega, by simpa using hr⟩
    rintro rfl
    have e : readNat ('0' :: rest) = readNat rest := by
      rw [show '0' :: rest = ['0'] ++ rest from rfl, readNat_append]
      simp [readNat, digitVal]
    have h3 := readNat_lt rest (fun c hc => hd c (by simp [hc]))
    have h4 : rest.length = 5 := by omega
    rw [h4] at h3
    omega

theorem expo_spec (fuel n : Nat) (h : n < 10 ^ (fuel + 1)) (hn : 0 < n) : 10 ^ expo fuel n ≤ n ∧ n < 10 ^ (expo fuel n + 1) := by
  induction fuel generalizing n with
  | zero => simp [expo] at h ⊢; omega
  | succ fuel ih =>
    unfold expo
    split
    · simp; omega
    · obtain ⟨h1, h2⟩ := ih (n / 10) (by rw [Nat.pow_succ] at h; omega) (by omega)
      constructor
      · rw [Nat.pow_succ]; omega
      · rw [Nat.pow_succ]; omega

theorem roundDiv_spec (n d : Nat) (hd : 0 < d) :
    2 * (roundDiv n d * d) ≤ 2 * n + d ∧ 2 * n ≤ 2 * (roundDiv n d * d) + d ∧
      (2 * (roundDiv n d * d) = 2 * n + d ∨ 2 * n = 2 * (roundDiv n d * d) + d → roundDiv n d % 2 = 0) := by
  have h1 := Nat.div_add_mod n d
  have h2 := Nat.mod_lt n hd
  rw [Nat.mul_comm] at h1
  unfold roundDiv
  dsimp only
  split
  · omega
  · split
    · rw [Nat.add_mul]; omega
    · split
      · omega
      · rw [Nat.add_mul]; omega

/-- C76: from a million on a count is shown in scientific notation with at most six significant digits and no zero at the end of the fraction. The number shown is the nearest to the count
that has six digits, and of two nearest ones the one whose sixth digit is even: `10 ^ k` is the value of the first digit of the count. -/
theorem C76_counts_nearest (n k : Nat) (h : 1000000 ≤ n) (hk : 10 ^ k ≤ n ∧ n < 10 ^ (k + 1)) :
    ∃ d frac e, fmtG n = scientific d frac e ∧ d ≠ '0' ∧ (∀ c ∈ d :: frac, isDig c = true) ∧ frac.length ≤ 5 ∧ frac.getLast? ≠ some '0' ∧
      ∃ m, readNat (d :: frac) * 10 ^ (e - frac.length) = m * 10 ^ (k - 5) ∧
        2 * (m * 10 ^ (k - 5)) ≤ 2 * n + 10 ^ (k - 5) ∧ 2 * n ≤ 2 * (m * 10 ^ (k - 5)) + 10 ^ (k - 5) ∧
        (2 * (m * 10 ^ (k - 5)) = 2 * n + 10 ^ (k - 5) ∨ 2 * n = 2 * (m * 10 ^ (k - 5)) + 10 ^ (k - 5) → m % 2 = 0) := by
  have hn : n < 10 ^ (n + 1) := by
    have := Nat.lt_pow_self (show 1 < 10 by omega) (n := n + 1)
    omega
  obtain ⟨e1, e2⟩ := expo_spec n n hn (by omega)
  have hexp : expo n n = k := by
    have h1 : expo n n < k + 1 := (Nat.pow_lt_pow_iff_right (show 1 < 10 by omega)).1 (lt_of_le_of_lt e1 hk.2)
    have h2 : k < expo n n + 1 := (Nat.pow_lt_pow_iff_right (show 1 < 10 by omega)).1 (lt_of_le_of_lt hk.1 e2)
    omega
  have hk6 : 6 ≤ k := by
    by_contra hc
    have := Nat.pow_le_pow_right (show 0 < 10 by omega) (show k + 1 ≤ 6 by omega)
    omega
  have hpos : 0 < 10 ^ (k - 5) := Nat.pow_pos (by omega)
  obtain ⟨r1, r2, r3⟩ := roundDiv_spec n (10 ^ (k - 5)) hpos
  have hp5 : 10 ^ k = 100000 * 10 ^ (k - 5) := by
    rw [show (100000 : Nat) = 10 ^ 5 from rfl, ← Nat.pow_add]
    congr 1
    omega
  have hp6 : 10 ^ (k + 1) = 1000000 * 10 ^ (k - 5) := by rw [Nat.pow_succ, hp5]; omega
  have hm1 : 100000 ≤ roundDiv n (10 ^ (k - 5)) := by
    by_contra hc
    have := Nat.mul_le_mul_right (10 ^ (k - 5)) (show roundDiv n (10 ^ (k - 5)) ≤ 99999 by omega)
    omega
  have hm2 : roundDiv n (10 ^ (k - 5)) ≤ 1000000 := by
    by_contra hc
    have := Nat.mul_le_mul_right (10 ^ (k - 5)) (show 1000001 ≤ roundDiv n (10 ^ (k - 5)) by omega)
    omega
  -- the text of six digits and an exponent
  have key : ∀ (m e : Nat), 100000 ≤ m → m < 1000000 → 6 ≤ e →
      ∃ d frac, (showNat m).take 1 ++ (if (stripZeros ((showNat m).drop 1)).length ≠ 0 then '.' :: stripZeros ((showNat m).drop 1) else []) ++ "E+".toList ++
        (if (showNat e).length < 2 then '0' :: showNat e else showNat e) = scientific d frac e ∧ d ≠ '0' ∧ (∀ c ∈ d :: frac, isDig c = true) ∧ frac.length ≤ 5 ∧
        frac.getLast? ≠ some '0' ∧ readNat (d :: frac) * 10 ^ (e - frac.length) = m * 10 ^ (e - 5) := by
    intro m e g1 g2 g3
    obtain ⟨d, d1, d2, d3, d4, d5, d6⟩ := six_digits m g1 g2
    obtain ⟨z, z1, z2⟩ := stripZeros_spec ((showNat m).drop 1)
    have hlen := congrArg List.length z1
    rw [d5, List.length_append, List.length_replicate] at hlen
    refine ⟨d, stripZeros ((showNat m).drop 1), ?_, d1, ?_, by omega, z2, ?_⟩
    · unfold scientific
      have he : (showNat e).length < 2 ↔ e < 10 := by
        constructor
        · intro hl
          have h1 := readNat_lt _ (showNat_digits e)
          rw [readNat_showNat] at h1
          have := Nat.pow_le_pow_right (show 0 < 10 by omega) (show (showNat e).length ≤ 1 by omega)
          omega
        · intro hl
          have : (showNat e).length ≤ 1 := showAux_length (e + 1) e 0 (by omega) (by simpa using hl)
          omega
      rw [d3]
      simp only [he, ne_eq, List.length_eq_zero_iff, ite_not, List.cons_append, List.nil_append]
    · intro c hc
      rcases List.mem_cons.1 hc with rfl | hc
      · exact d2
      · exact d4 c (by rw [z1]; exact List.mem_append_left _ hc)
    · have : m = readNat (d :: stripZeros ((showNat m).drop 1)) * 10 ^ z := by
        rw [z1, ← List.cons_append, readNat_append, readNat_zeros, List.length_replicate] at d6
        omega
      conv_rhs => rw [this]
      rw [Nat.mul_assoc, ← Nat.pow_add]
      congr 2
      omega
  unfold fmtG
  rw [if_neg (show ¬ n < 1000000 by omega), hexp]
  dsimp only
  by_cases hm : roundDiv n (10 ^ (k - 5)) = 1000000
  · rw [if_pos hm]
    obtain ⟨d, frac, k1, k2, k3, k4, k5, k6⟩ := key 100000 (k + 1) (by omega) (by omega) (by omega)
    refine ⟨d, frac, k + 1, k1, k2, k3, k4, k5, roundDiv n (10 ^ (k - 5)), ?_, r1, r2, r3⟩
    rw [k6, hm, show k + 1 - 5 = (k - 5) + 1 by omega, Nat.pow_succ]
    omega
  · rw [if_neg hm]
    obtain ⟨d, frac, k1, k2, k3, k4, k5, k6⟩ := key (roundDiv n (10 ^ (k - 5))) k hm1 (by omega) hk6
    exact ⟨d, frac, k, k1, k2, k3, k4, k5, roundDiv n (10 ^ (k - 5)), k6, r1, r2, r3⟩

/-- C76: graphs with different numbers of nodes are told apart by the tuple but not by the string. -/
theorem C76_same_text : fmtG 1234567 = fmtG 1234568 ∧ fmtG 1234567 = "1.23457E+06".toList := by decide +kernel

end

/-! ## Concrete cases -/

private def exG : Graph Nat := ⟨[1, 2, 3, 4], [(1, 2), (2, 2)]⟩
private def fmtQ (n : Nat) : Str := "0.".toList ++ showNat n

example : fmtG 1000000 = "1E+06".toList ∧ fmtG 1234565 = "1.23456E+06".toList ∧ fmtG 9999997 = "1E+07".toList ∧ fmtG 12340000 = "1.234E+07".toList := by decide +kernel
example : lonely exG = 2 ∧ loops exG = 1 := by decide +kernel
example : (graphStats fmtQ 33 0 exG ["edges".toList, "loops".toList, "edges".toList] false false).toOption = some (.tuple [.int 2, .int 1, .int 2]) := by decide +kernel
example : (graphStats fmtQ 33 0 exG ["edges".toList, "isolates".toList, "nodes".toList, "density".toList] true true).toOption =
    some (.str "The graph has 4 nodes, 2 edges, 2 isolates and a density of 0.33".toList) := by decide +kernel
example : (graphStats fmtQ 33 0 exG ["edges".toList, "loops".toList] true false).toOption = some (.str "Edges: 2\nSelf loops: 1".toList) := by decide +kernel

end Verif.Props.GraphStats
