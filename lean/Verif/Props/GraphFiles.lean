import Verif.Model.GraphFiles

/-! # C43: writing a graph to files and reading it back -/
set_option autoImplicit false
set_option linter.unusedSectionVars false
set_option linter.unusedSimpArgs false
namespace Verif.Props
open Verif.Py Verif.Py.Graph Verif.Model.GraphFiles Verif.Py.Csv

/-- The names of the columns which are not attributes. -/
def kID : Str := ['I', 'D']
def kSource : Str := ['S', 'o', 'u', 'r', 'c', 'e']
def kTarget : Str := ['T', 'a', 'r', 'g', 'e', 't']

/-- The attributes that come back: one for each column, the text of the value, empty where it was missing. -/
def readBack (columns : List Str) (a : Attrs) : Attrs :=
  columns.map (fun k => (k, .str (match a.get? k with | none => [] | some c => text c)))

/-- `order` lists, once each, the names of the attributes of `items`. -/
def Columns (order : List Str) (items : List Attrs) : Prop :=
  order.Nodup ∧ ∀ k, k ∈ order ↔ ∃ a ∈ items, (a.get? k).isSome

/-- Graphs whose names survive the files: no carriage return in a name or a value, no node attribute called `ID`, no edge attribute
called `Source` or `Target`. -/
structure Writable (g : G) : Prop where
  names : ∀ n, g.hasNode n = true → NoCr n
  nodeKeys : ∀ n a k, g.node? n = some a → (a.get? k).isSome → NoCr k ∧ k ≠ kID
  nodeVals : ∀ n a k c, g.node? n = some a → a.get? k = some c → CellOk c
  edgeKeys : ∀ u v a k, g.edge? u v = some a → (a.get? k).isSome → NoCr k ∧ k ≠ kSource ∧ k ≠ kTarget
  edgeVals : ∀ u v a k c, g.edge? u v = some a → a.get? k = some c → CellOk c

theorem mem_getE {B : Type} {d : Bool} {l : List ((Str × Str) × B)} (hl : l.Pairwise (fun a b => sameEdge d a.1 b.1 = false))
    {e : (Str × Str) × B} (he : e ∈ l) : getE d l e.1 = some e.2 := by
  induction l with
  | nil => simp at he
  | cons x l ih =>
    obtain ⟨k, b⟩ := x
    rw [List.pairwise_cons] at hl
    unfold getE
    rcases List.mem_cons.1 he with rfl | he
    · simp [sameEdge_refl]
    · have := hl.1 e he
      simp only [] at this
      simp [this, ih hl.2 he]

/-- The text of a cell that may be missing. -/
def cellText (o : Option Cell) : Str := match o with | none => [] | some c => text c

theorem text_getD (o : Option Cell) : text (o.getD (.str [])) = cellText o := by
  cases o <;> rfl

theorem keys_zipped (cols : List Str) (f : Str → Str) : Dict.keys (cols.map (fun k => (k, f k))) = cols := by
  simp [Dict.keys, Function.comp_def]

theorem get?_zipped (cols : List Str) (f : Str → Str) (k : Str) :
    Dict.get? (cols.map (fun k => (k, f k))) k = if k ∈ cols then some (f k) else none := by
  induction cols with
  | nil => simp
  | cons c cols ih =>
    simp only [List.map_cons, Dict.get?, ih]
    by_cases h : c = k
    · subst h; simp
    · have : ¬ k = c := fun h' => h h'.symm
      simp [h, this]

theorem zip_row (cols : List Str) (d : Attrs) :
    (((cols.map Cell.str).map text).zip ((dictRow cols d).map text)) = cols.map (fun k => (k, cellText (d.get? k))) := by
  unfold dictRow
  induction cols with
  | nil => rfl
  | cons c cols ih =>
    have h := text_getD (d.get? c)
    simp only [List.map_cons, List.zip_cons_cons]
    rw [ih, h]; rfl

/-- The dictionaries read from a file `csv.DictWriter` wrote. -/
theorem dictRead_dictFile (cols : List Str) (hne : cols ≠ []) (hnd : cols.Nodup) (hcr : ∀ k ∈ cols, NoCr k) (ds : List Attrs)
    (hok : ∀ d ∈ ds, ∀ k ∈ cols, ∀ c, d.get? k = some c → CellOk c) :
    dictRead (dictFile cols ds) = ds.map (fun d => cols.map (fun k => (k, cellText (d.get? k)))) := by
  unfold dictFile
  rw [dictRead_rows]
  · rw [List.map_map]
    apply List.map_congr_left
    intro d _
    simp only [Function.comp_apply]
    rw [zip_row, Dict.update_nil_left]
    unfold Dict.WF; rw [keys_zipped]; exact hnd
  · simpa using hne
  · intro c hc
    obtain ⟨k, hk, rfl⟩ := List.mem_map.1 hc
    exact hcr k hk
  · intro r hr
    obtain ⟨d, _, rfl⟩ := List.mem_map.1 hr
    simpa [dictRow] using hne
  · intro r hr c hc
    obtain ⟨d, hd, rfl⟩ := List.mem_map.1 hr
    unfold dictRow at hc
    obtain ⟨k, hk, rfl⟩ := List.mem_map.1 hc
    cases hg : d.get? k with
    | none => simp [CellOk, NoCr]
    | some c => exact hok d hd k hk c hg

theorem erase_head (k v : Str) (d : Dict Str Str) : Dict.erase ((k, v) :: d) k = d := by
  simp [Dict.erase]

theorem strs_zipped (cols : List Str) (a b : Attrs) (h : ∀ k ∈ cols, b.get? k = a.get? k) :
    strs (cols.map (fun k => (k, cellText (b.get? k)))) = readBack cols a := by
  unfold strs readBack
  rw [List.map_map]
  apply List.map_congr_left
  intro k hk
  simp only [Function.comp_apply, h k hk, cellText]

theorem keys_readBack (cols : List Str) (a : Attrs) : Dict.keys (readBack cols a) = cols := by
  simp [Dict.keys, readBack, Function.comp_def]

theorem read_nodes (cols : List Str) (hnd : cols.Nodup) (hid : kID ∉ cols) (l : List (Str × Attrs)) (g : G)
    (hl : (l.map Prod.fst).Nodup) (hfresh : ∀ n ∈ l, n.1 ∉ g.nodes.keys) :
    (l.map (fun n => (kID :: cols).map (fun k => (k, cellText ((n.2.set kID (.str n.1)).get? k))))).foldlM (readNode kID) g =
      .ok { g with nodes := g.nodes ++ l.map (fun n => (n.1, readBack cols n.2)) } := by
  induction l generalizing g with
  | nil => simp [pure, Except.pure]
  | cons n l ih =>
    simp only [List.map_cons, List.nodup_cons] at hl
    have hf := hfresh n (by simp)
    have h1 : readNode kID g ((kID :: cols).map (fun k => (k, cellText ((n.2.set kID (.str n.1)).get? k)))) =
        .ok { g with nodes := g.nodes ++ [(n.1, readBack cols n.2)] } := by
      unfold readNode
      have hget : Dict.get? ((kID :: cols).map (fun k => (k, cellText ((n.2.set kID (.str n.1)).get? k)))) kID = some n.1 := by
        simp [Dict.get?, cellText, text]
      rw [hget]
      simp only []
      have hnone : g.node? n.1 = none := by unfold node?; rw [Dict.get?_eq_none_iff]; exact hf
      rw [hnone, List.map_cons, erase_head, strs_zipped cols n.2]
      · rw [Option.getD_none, Dict.update_nil_left]
        · unfold setNode; rw [Dict.set_fresh _ _ _ hf]
        · unfold Dict.WF; rw [keys_readBack]; exact hnd
      · intro k hk
        rw [Dict.get?_set_ne]
        rintro rfl; exact hid hk
    rw [List.map_cons, List.foldlM_cons, h1]
    simp only [bind, Except.bind]
    rw [ih _ hl.2]
    · simp
    · intro m hm
      simp only [Dict.keys, List.map_append, List.map_cons, List.map_nil, List.mem_append, List.mem_singleton, not_or]
      refine ⟨hfresh m (by simp [hm]), ?_⟩
      rintro h
      exact hl.1 (h ▸ List.mem_map.2 ⟨m, hm, rfl⟩)

theorem setE_fresh {B : Type} (d : Bool) (l : List ((Str × Str) × B)) (p : Str × Str) (b : B)
    (h : ∀ e ∈ l, sameEdge d e.1 p = false) : setE d l p b = l ++ [(p, b)] := by
  induction l with
  | nil => rfl
  | cons x l ih =>
    obtain ⟨k, b'⟩ := x
    have := h (k, b') (by simp)
    simp only [] at this
    simp [setE, this, ih (fun e he => h e (by simp [he]))]

theorem getE_fresh {B : Type} (d : Bool) (l : List ((Str × Str) × B)) (p : Str × Str)
    (h : ∀ e ∈ l, sameEdge d e.1 p = false) : getE d l p = none := by
  induction l with
  | nil => rfl
  | cons x l ih =>
    obtain ⟨k, b'⟩ := x
    have := h (k, b') (by simp)
    simp only [] at this
    simp [getE, this, ih (fun e he => h e (by simp [he]))]

theorem touch_present (g : G) (n : Str) (h : g.hasNode n = true) : g.touch n = g := by
  unfold touch
  unfold hasNode at h
  cases hn : g.node? n with
  | none => rw [hn] at h; simp at h
  | some a => rfl

theorem read_edges (cols : List Str) (hnd : cols.Nodup) (hs : kSource ∉ cols) (ht : kTarget ∉ cols) (l : List ((Str × Str) × Attrs))
    (g : G) (hl : l.Pairwise (fun a b => sameEdge g.directed a.1 b.1 = false))
    (hends : ∀ e ∈ l, g.hasNode e.1.1 = true ∧ g.hasNode e.1.2 = true)
    (hfresh : ∀ e ∈ l, ∀ e' ∈ g.edges, sameEdge g.directed e'.1 e.1 = false) :
    (l.map (fun e => (kSource :: kTarget :: cols).map (fun k =>
        (k, cellText (((e.2.set kSource (.str e.1.1)).set kTarget (.str e.1.2)).get? k))))).foldlM (readEdge kSource kTarget) g =
      .ok { g with edges := g.edges ++ l.map (fun e => (e.1, readBack cols e.2)) } := by
  induction l generalizing g with
  | nil => simp [pure, Except.pure]
  | cons e l ih =>
    rw [List.pairwise_cons] at hl
    have hf := hfresh e (by simp)
    have he := hends e (by simp)
    have hst : kSource ≠ kTarget := by decide
    have h1 : readEdge kSource kTarget g ((kSource :: kTarget :: cols).map (fun k =>
        (k, cellText (((e.2.set kSource (.str e.1.1)).set kTarget (.str e.1.2)).get? k)))) =
        .ok { g with edges := g.edges ++ [(e.1, readBack cols e.2)] } := by
      unfold readEdge
      have hgs : Dict.get? ((kSource :: kTarget :: cols).map (fun k =>
          (k, cellText (((e.2.set kSource (.str e.1.1)).set kTarget (.str e.1.2)).get? k)))) kSource = some e.1.1 := by
        simp only [List.map_cons, Dict.get?, if_true]
        rw [Dict.get?_set_ne _ _ hst.symm]
        simp [cellText, text]
      have hgt : Dict.get? ((kSource :: kTarget :: cols).map (fun k =>
          (k, cellText (((e.2.set kSource (.str e.1.1)).set kTarget (.str e.1.2)).get? k)))) kTarget = some e.1.2 := by
        simp only [List.map_cons, Dict.get?, if_true, hst, if_false]
        simp [cellText, text]
      rw [hgs, hgt]
      simp only []
      have hnone : g.edge? e.1.1 e.1.2 = none := getE_fresh _ _ _ hf
      rw [hnone, List.map_cons, List.map_cons, erase_head, erase_head, strs_zipped cols e.2]
      · rw [Option.getD_none, Dict.update_nil_left]
        · unfold setEdge
          rw [touch_present g _ he.1, touch_present g _ he.2]
          simp only []
          rw [setE_fresh _ _ _ _ hf]
        · unfold Dict.WF; rw [keys_readBack]; exact hnd
      · intro k hk
        rw [Dict.get?_set_ne, Dict.get?_set_ne]
        · rintro rfl; exact hs hk
        · rintro rfl; exact ht hk
    rw [List.map_cons, List.foldlM_cons, h1]
    simp only [bind, Except.bind]
    rw [ih]
    · simp
    · exact hl.2
    · intro e' he'; exact hends e' (by simp [he'])
    · intro e' he' x hx
      simp only [List.mem_append, List.mem_singleton] at hx
      rcases hx with hx | rfl
      · exact hfresh e' (by simp [he']) x hx
      · exact hl.1 e' he'

/-- **C43.** `readGraph(writeGraph(G))` has the nodes and edges of `G`; each has one attribute per column, holding the text of its value,
empty where the value was missing. -/
theorem C43_round_trip_partial (g : G) (hg : g.WF) (hw : Writable g) (nodeOrder edgeOrder : List Str)
    (hno : Columns nodeOrder (g.nodes.map Prod.snd)) (heo : Columns edgeOrder (g.edges.map Prod.snd)) :
    ∃ files, writeGraph true false edgeOrder nodeOrder g = .ok files ∧
      readGraph g.directed kID kSource kTarget files.1 (some files.2) =
        .ok ⟨g.directed, g.nodes.map (fun n => (n.1, readBack nodeOrder n.2)), g.edges.map (fun e => (e.1, readBack edgeOrder e.2))⟩ := by
  have hmem : ∀ n ∈ g.nodes, g.node? n.1 = some n.2 := fun n hn => Dict.get?_of_mem hg.nodes hn
  have hemem : ∀ e ∈ g.edges, g.edge? e.1.1 e.1.2 = some e.2 := fun e he => mem_getE hg.edges he
  have hnodeFile : ∃ t, writeNodeAttributeFile false nodeOrder g = .ok t ∧
      dictRead t = g.nodes.map (fun n => (kID :: nodeOrder).map (fun k => (k, cellText ((n.2.set kID (.str n.1)).get? k)))) := by
    unfold writeNodeAttributeFile
    cases hn : g.nodes with
    | nil => exact ⟨_, rfl, by rw [List.map_nil]; decide⟩
    | cons x l =>
      rw [← hn]
      refine ⟨_, by rw [hn]; rfl, ?_⟩
      rw [← hn, dictRead_dictFile]
      · rw [List.map_map]; rfl
      · simp
      · rw [List.nodup_cons]
        refine ⟨?_, hno.1⟩
        intro hk
        obtain ⟨a, ha, hs⟩ := (hno.2 kID).1 hk
        obtain ⟨n, hn', rfl⟩ := List.mem_map.1 ha
        exact (hw.nodeKeys n.1 n.2 kID (hmem n hn') hs).2 rfl
      · intro k hk
        rcases List.mem_cons.1 hk with rfl | hk
        · unfold NoCr; decide
        · obtain ⟨a, ha, hs⟩ := (hno.2 k).1 hk
          obtain ⟨n, hn', rfl⟩ := List.mem_map.1 ha
          exact (hw.nodeKeys n.1 n.2 k (hmem n hn') hs).1
      · intro d hd k _ c hc
        obtain ⟨n, hn', rfl⟩ := List.mem_map.1 hd
        rw [Dict.get?_set] at hc
        split at hc
        · simp only [Option.some.injEq] at hc; subst hc
          exact hw.names n.1 (by unfold hasNode; rw [hmem n hn']; rfl)
        · exact hw.nodeVals n.1 n.2 k c (hmem n hn') hc
  have hedgeFile : ∃ t, writeEdgeList true false edgeOrder g = .ok t ∧
      dictRead t = g.edges.map (fun e => (kSource :: kTarget :: edgeOrder).map (fun k =>
        (k, cellText (((e.2.set kSource (.str e.1.1)).set kTarget (.str e.1.2)).get? k)))) := by
    unfold writeEdgeList
    cases hn : g.edges with
    | nil => exact ⟨_, rfl, by rw [List.map_nil]; decide⟩
    | cons x l =>
      rw [← hn]
      refine ⟨_, by rw [hn]; rfl, ?_⟩
      rw [← hn, dictRead_dictFile]
      · rw [List.map_map]; rfl
      · simp
      · have hk : ∀ k, k ∈ edgeOrder → k ≠ kSource ∧ k ≠ kTarget := by
          intro k hk
          obtain ⟨a, ha, hs⟩ := (heo.2 k).1 hk
          obtain ⟨e, he, rfl⟩ := List.mem_map.1 ha
          exact (hw.edgeKeys _ _ e.2 k (hemem e he) hs).2
        rw [List.nodup_cons, List.nodup_cons]
        refine ⟨?_, fun h => (hk _ h).2 rfl, heo.1⟩
        intro h
        rcases List.mem_cons.1 h with h | h
        · exact absurd h (by decide)
        · exact (hk _ h).1 rfl
      · intro k hk
        rcases List.mem_cons.1 hk with rfl | hk
        · unfold NoCr; decide
        · rcases List.mem_cons.1 hk with rfl | hk
          · unfold NoCr; decide
          · obtain ⟨a, ha, hs⟩ := (heo.2 k).1 hk
            obtain ⟨e, he, rfl⟩ := List.mem_map.1 ha
            exact (hw.edgeKeys _ _ e.2 k (hemem e he) hs).1
      · intro d hd k _ c hc
        obtain ⟨e, he, rfl⟩ := List.mem_map.1 hd
        have hends := hg.ends e he
        rw [Dict.get?_set] at hc
        split at hc
        · simp only [Option.some.injEq] at hc; subst hc
          exact hw.names _ hends.2
        · rw [Dict.get?_set] at hc
          split at hc
          · simp only [Option.some.injEq] at hc; subst hc
            exact hw.names _ hends.1
          · exact hw.edgeVals _ _ e.2 k c (hemem e he) hc
  obtain ⟨tn, hn1, hn2⟩ := hnodeFile
  obtain ⟨te, he1, he2⟩ := hedgeFile
  refine ⟨(te, tn), by simp [writeGraph, hn1, he1, bind, Except.bind, pure, Except.pure], ?_⟩
  unfold readGraph
  simp only [hn2, he2]
  have hid : kID ∉ nodeOrder := by
    intro hk
    obtain ⟨a, ha, hs⟩ := (hno.2 kID).1 hk
    obtain ⟨n, hn', rfl⟩ := List.mem_map.1 ha
    exact (hw.nodeKeys n.1 n.2 kID (hmem n hn') hs).2 rfl
  rw [read_nodes nodeOrder hno.1 hid g.nodes (Graph.empty g.directed) hg.nodes (by simp [Graph.empty, Dict.keys])]
  simp only [bind, Except.bind]
  have hk : ∀ k, k ∈ edgeOrder → k ≠ kSource ∧ k ≠ kTarget := by
    intro k hk
    obtain ⟨a, ha, hs⟩ := (heo.2 k).1 hk
    obtain ⟨e, he, rfl⟩ := List.mem_map.1 ha
    exact (hw.edgeKeys _ _ e.2 k (hemem e he) hs).2
  have hpres : ∀ n, g.hasNode n = true →
      (⟨g.directed, [] ++ g.nodes.map (fun n => (n.1, readBack nodeOrder n.2)), []⟩ : G).hasNode n = true := by
    intro n hn
    unfold hasNode node? at hn ⊢
    rw [← Dict.mem_keys_iff] at hn ⊢
    simpa [Dict.keys] using hn
  rw [read_edges edgeOrder heo.1 (fun h => (hk _ h).1 rfl) (fun h => (hk _ h).2 rfl) g.edges]
  · simp [Graph.empty]
  · exact hg.edges
  · intro e he
    have := hg.ends e he
    exact ⟨hpres _ this.1, hpres _ this.2⟩
  · simp [Graph.empty]

/-- **C43**, the case in which everything comes back: all values are strings and all nodes (edges) have the same attributes. -/
theorem C43_strings (g : G) (hg : g.WF) (hw : Writable g) (nodeOrder edgeOrder : List Str)
    (hno : Columns nodeOrder (g.nodes.map Prod.snd)) (heo : Columns edgeOrder (g.edges.map Prod.snd))
    (hns : ∀ n a k, g.node? n = some a → k ∈ nodeOrder → ∃ s, a.get? k = some (.str s))
    (hes : ∀ u v a k, g.edge? u v = some a → k ∈ edgeOrder → ∃ s, a.get? k = some (.str s)) :
    ∃ files r, writeGraph true false edgeOrder nodeOrder g = .ok files ∧
      readGraph g.directed kID kSource kTarget files.1 (some files.2) = .ok r ∧ r.directed = g.directed ∧
      r.nodes.keys = g.nodes.keys ∧ r.edges.map Prod.fst = g.edges.map Prod.fst ∧
      (∀ n a, g.node? n = some a → ∃ b, r.node? n = some b ∧ ∀ k, b.get? k = a.get? k) ∧
      (∀ u v a, g.edge? u v = some a → ∃ b, r.edge? u v = some b ∧ ∀ k, b.get? k = a.get? k) := by
  obtain ⟨files, h1, h2⟩ := C43_round_trip_partial g hg hw nodeOrder edgeOrder hno heo
  have hback : ∀ (cols : List Str) (a : Attrs), (∀ k ∈ cols, ∃ s, a.get? k = some (.str s)) → (∀ k, (a.get? k).isSome → k ∈ cols) →
      ∀ k, (readBack cols a).get? k = a.get? k := by
    intro cols a ha hb k
    have hz : ∀ (cols : List Str), Dict.get? (readBack cols a) k =
        if k ∈ cols then some (.str (match a.get? k with | none => [] | some c => text c)) else none := by
      intro cols
      unfold readBack
      induction cols with
      | nil => simp
      | cons c cols ih =>
        simp only [List.map_cons, Dict.get?, ih]
        by_cases h : c = k
        · subst h; simp
        · have : ¬ k = c := fun h' => h h'.symm
          simp [h, this]
    rw [hz]
    by_cases hk : k ∈ cols
    · obtain ⟨s, hs⟩ := ha k hk
      simp [hk, hs, text]
    · rw [if_neg hk]
      cases hg : a.get? k with
      | none => rfl
      | some c => exact absurd (hb k (by rw [hg]; rfl)) hk
  refine ⟨files, _, h1, h2, rfl, by simp [Dict.keys, Function.comp_def], by simp [Function.comp_def], ?_, ?_⟩
  · intro n a hn
    refine ⟨readBack nodeOrder a, ?_, hback nodeOrder a (fun k hk => hns n a k hn hk) ?_⟩
    · unfold node? at hn ⊢
      simp only []
      generalize g.nodes = l at hn
      induction l with
      | nil => simp at hn
      | cons x l ih =>
        simp only [List.map_cons, Dict.get?] at hn ⊢
        split
        · rename_i hx; rw [if_pos hx] at hn; simp at hn; rw [hn]
        · rename_i hx; rw [if_neg hx] at hn; exact ih hn
    · intro k hk; rw [hno.2]; exact ⟨a, List.mem_map.2 ⟨(n, a), Dict.mem_of_get? hn, rfl⟩, hk⟩
  · intro u v a he
    refine ⟨readBack edgeOrder a, ?_, hback edgeOrder a (fun k hk => hes u v a k he hk) ?_⟩
    · unfold edge? at he ⊢
      simp only []
      generalize g.edges = l at he
      induction l with
      | nil => simp [getE] at he
      | cons x l ih =>
        simp only [List.map_cons, getE] at he ⊢
        split
        · rename_i hx; rw [if_pos hx] at he; simp at he; rw [he]
        · rename_i hx; rw [if_neg hx] at he; exact ih he
    · intro k hk
      rw [heo.2]
      have hm : ∃ e ∈ g.edges, e.2 = a := by
        unfold edge? at he
        generalize g.edges = l at he
        induction l with
        | nil => simp [getE] at he
        | cons x l ih =>
          simp only [getE] at he
          split at he
          · simp at he; exact ⟨x, by simp, he⟩
          · obtain ⟨e, h1, h2⟩ := ih he; exact ⟨e, by simp [h1], h2⟩
      obtain ⟨e, h1, h2⟩ := hm
      exact ⟨a, List.mem_map.2 ⟨e, h1, h2⟩, hk⟩

/-- **C43, disagreement.** `edgeInfo = False` raises as soon as the graph has an edge, and `allSameAttribute = True` as soon as it has a
node or an edge. -/
theorem C43_options_raise (allSame : Bool) (eo no : List Str) (g : G) :
    (g.edges ≠ [] → writeGraph false allSame eo no g = .error .unboundLocalError) ∧
    (g.nodes ≠ [] ∨ g.edges ≠ [] → writeGraph true true eo no g = .error .attributeError) := by
  have hE : ∀ {l : List ((Str × Str) × Attrs)}, l ≠ [] → l.isEmpty = false := by intro l hl; cases l <;> simp_all
  have hN : ∀ {l : List (Str × Attrs)}, l ≠ [] → l.isEmpty = false := by intro l hl; cases l <;> simp_all
  constructor
  · intro h
    simp [writeGraph, writeEdgeList, hE h, bind, Except.bind]
  · intro h
    by_cases he : g.edges = []
    · rcases h with h | h
      · have := hN h
        simp [writeGraph, writeEdgeList, writeNodeAttributeFile, he, this, bind, Except.bind]
      · exact absurd he h
    · simp [writeGraph, writeEdgeList, hE he, bind, Except.bind]

/-- A graph with a name that needs quoting, a number and a missing attribute. -/
def exF : G :=
  ⟨true, [(['a', ',', '"'], [(['c'], .num (-12))]), (['b'], [(['t'], .str ['x', '\n'])])],
    [((['a', ',', '"'], ['b']), [(['w'], .num 3)])]⟩

/-- A way to check `Writable` by computation. -/
theorem writable_of (g : G)
    (h1 : ∀ n ∈ g.nodes, '\r' ∉ n.1 ∧ ∀ p ∈ n.2, '\r' ∉ p.1 ∧ p.1 ≠ kID ∧ '\r' ∉ text p.2)
    (h2 : ∀ e ∈ g.edges, ∀ p ∈ e.2, '\r' ∉ p.1 ∧ p.1 ≠ kSource ∧ p.1 ≠ kTarget ∧ '\r' ∉ text p.2) : Writable g := by
  have hok : ∀ c : Cell, '\r' ∉ text c → CellOk c := by
    intro c hc
    cases c with
    | num n => trivial
    | str s => exact hc
  have hm : ∀ {u v a}, g.edge? u v = some a → ∃ e ∈ g.edges, e.2 = a := by
    intro u v a he
    unfold edge? at he
    generalize g.edges = l at he
    induction l with
    | nil => simp [getE] at he
    | cons x l ih =>
      simp only [getE] at he
      split at he
      · simp at he; exact ⟨x, by simp, he⟩
      · obtain ⟨e, h1, h2⟩ := ih he; exact ⟨e, by simp [h1], h2⟩
  refine ⟨?_, ?_, ?_, ?_, ?_⟩
  · intro n hn
    unfold hasNode at hn
    obtain ⟨a, ha⟩ := Option.isSome_iff_exists.1 hn
    exact (h1 _ (Dict.mem_of_get? ha)).1
  · intro n a k hn hk
    obtain ⟨c, hc⟩ := Option.isSome_iff_exists.1 hk
    have := (h1 _ (Dict.mem_of_get? hn)).2 _ (Dict.mem_of_get? hc)
    exact ⟨this.1, this.2.1⟩
  · intro n a k c hn hc
    exact hok _ ((h1 _ (Dict.mem_of_get? hn)).2 _ (Dict.mem_of_get? hc)).2.2
  · intro u v a k he hk
    obtain ⟨c, hc⟩ := Option.isSome_iff_exists.1 hk
    obtain ⟨e, h3, rfl⟩ := hm he
    have := h2 e h3 _ (Dict.mem_of_get? hc)
    exact ⟨this.1, this.2.1, this.2.2.1⟩
  · intro u v a k c he hc
    obtain ⟨e, h3, rfl⟩ := hm he
    exact hok _ (h2 e h3 _ (Dict.mem_of_get? hc)).2.2.2

theorem exF_ok : exF.WF ∧ Writable exF ∧ Columns [['t'], ['c']] (exF.nodes.map Prod.snd) ∧ Columns [['w']] (exF.edges.map Prod.snd) := by
  refine ⟨⟨by decide, by decide, by decide⟩, writable_of _ (by decide) (by decide), ⟨by decide, ?_⟩, ⟨by decide, ?_⟩⟩
  · intro k
    simp only [exF, List.map_cons, List.map_nil, List.mem_cons, List.not_mem_nil, or_false, exists_eq_or_imp, exists_eq_left,
      Dict.get?]
    by_cases h1 : ['c'] = k
    · subst h1; decide
    · by_cases h2 : ['t'] = k
      · subst h2; decide
      · simp [h1, h2, Ne.symm h1, Ne.symm h2, eq_comm]
  · intro k
    simp only [exF, List.map_cons, List.map_nil, List.mem_cons, List.not_mem_nil, or_false, exists_eq_left, Dict.get?]
    by_cases h1 : ['w'] = k
    · subst h1; decide
    · simp [h1, Ne.symm h1, eq_comm]

/-- **C43**, a graph without nodes: with every option the files have the headings only, and reading them gives a graph without
nodes and edges. -/
theorem C43_empty (edgeInfo allSame directed : Bool) (eo no : List Str) (g : G) (hn : g.nodes = []) (he : g.edges = []) :
    ∃ files, writeGraph edgeInfo allSame eo no g = .ok files ∧
      files.1 = "\"Source\",\"Target\"\n".toList ∧ files.2 = "ID\n".toList ∧
      readGraph directed kID kSource kTarget files.1 (some files.2) = .ok ⟨directed, [], []⟩ := by
  refine ⟨_, by simp only [writeGraph, writeEdgeList, writeNodeAttributeFile, hn, he]; rfl, rfl, rfl, ?_⟩
  cases directed <;> rfl

/-- **C43, disagreement.** A number comes back as a string, a missing attribute as the empty string. -/
theorem C43_types_lost :
    ∃ files, writeGraph true false [['w']] [['t'], ['c']] exF = .ok files ∧
      readGraph true kID kSource kTarget files.1 (some files.2) =
        .ok ⟨true, [(['a', ',', '"'], [(['t'], .str []), (['c'], .str ['-', '1', '2'])]),
            (['b'], [(['t'], .str ['x', '\n']), (['c'], .str [])])],
          [((['a', ',', '"'], ['b']), [(['w'], .str ['3'])])]⟩ := by
  obtain ⟨h1, h2, h3, h4⟩ := exF_ok
  obtain ⟨f, h5, h6⟩ := C43_round_trip_partial exF h1 h2 _ _ h3 h4
  refine ⟨f, h5, ?_⟩
  have hs : showInt (-12) = ['-', '1', '2'] ∧ showInt 3 = ['3'] := by decide
  have : (exF.nodes.map (fun n => (n.1, readBack [['t'], ['c']] n.2))) = [(['a', ',', '"'], [(['t'], .str []), (['c'], .str ['-', '1', '2'])]),
            (['b'], [(['t'], .str ['x', '\n']), (['c'], .str [])])] := by
    simp [exF, readBack, Dict.get?, text, hs]
  rw [this] at h6
  have : (exF.edges.map (fun e => (e.1, readBack [['w']] e.2))) = [((['a', ',', '"'], ['b']), [(['w'], .str ['3'])])] := by
    simp [exF, readBack, Dict.get?, text, hs]
  rw [this] at h6
  exact h6

end Verif.Props
