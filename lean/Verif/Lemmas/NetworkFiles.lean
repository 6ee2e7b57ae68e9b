import Verif.Model.NetworkFiles
import Verif.Spec.Graphs
import Verif.Lemmas.GraphHelpers
import Verif.Props.GraphDrops
import Verif.Props.GraphFiles

/-! # Saving a network and reading it again -/
set_option autoImplicit false
set_option linter.unusedSimpArgs false
namespace Verif.Lemmas.NetworkFiles
open Verif.Py Verif.Py.Graph Verif.Model.NetworkFiles Verif.Spec
open Verif.Model.GraphFiles (kID kSource kTarget)

section dress
variable {A B A' B' : Type} (fa : A → A') (fb : B → B')

theorem get?_map {κ V V' : Type} [DecidableEq κ] (f : V → V') (d : Dict κ V) (k : κ) : Dict.get? (d.map (fun p => (p.1, f p.2))) k = (Dict.get? d k).map f := by
  induction d with
  | nil => rfl
  | cons p d ih =>
    obtain ⟨a, b⟩ := p
    simp only [List.map_cons, Dict.get?, ih]
    split <;> rfl

theorem getE_map (d : Bool) (l : List ((Str × Str) × B)) (p : Str × Str) : getE d (l.map (fun e => (e.1, fb e.2))) p = (getE d l p).map fb := by
  induction l with
  | nil => rfl
  | cons e l ih =>
    obtain ⟨a, b⟩ := e
    simp only [List.map_cons, getE, ih]
    split <;> rfl

theorem node?_dress (g : Graph Str A B) (n : Str) : (dress fa fb g).node? n = (g.node? n).map fa := get?_map fa g.nodes n

theorem hasNode_dress (g : Graph Str A B) (n : Str) : (dress fa fb g).hasNode n = g.hasNode n := by
  unfold hasNode; rw [node?_dress, Option.isSome_map]

theorem edge?_dress (g : Graph Str A B) (u v : Str) : (dress fa fb g).edge? u v = (g.edge? u v).map fb := getE_map fb g.directed g.edges (u, v)

theorem WF_dress {g : Graph Str A B} (h : g.WF) : (dress fa fb g).WF where
  nodes := by
    have := h.nodes
    unfold Dict.WF Dict.keys at this ⊢
    show ((g.nodes.map _).map _).Nodup
    rw [List.map_map]
    exact this
  edges := by
    show (g.edges.map _).Pairwise _
    rw [List.pairwise_map]
    exact h.edges
  ends := by
    intro e he
    obtain ⟨e', he', rfl⟩ := List.mem_map.1 he
    rw [hasNode_dress, hasNode_dress]
    exact h.ends e' he'

end dress

theorem get?_cells (a : Model.GraphHelpers.Attrs) (k : Str) : (cells a).get? k = (Dict.get? a (String.ofList k)).map cell := by
  unfold cells
  induction a with
  | nil => rfl
  | cons p a ih =>
    obtain ⟨x, y⟩ := p
    simp only [List.map_cons, Dict.get?, ih]
    by_cases e : x = String.ofList k
    · subst e; simp
    · have : x.toList ≠ k := fun h => e (by rw [← h, String.ofList_toList])
      simp [e, this]

theorem columns_ok {shuffle : List Str → List Str} (hs : ∀ l, (shuffle l).Perm l) (items : List Model.GraphFiles.Attrs) :
    Verif.Props.Columns (columns shuffle items) items := by
  unfold columns
  refine ⟨(hs _).nodup_iff.2 (List.nodup_dedup _), fun k => ?_⟩
  rw [(hs _).mem_iff, List.mem_dedup, List.mem_flatMap]
  exact exists_congr fun a => and_congr Iff.rfl (Dict.mem_keys_iff a k)

theorem WF_dropEdges (lo hi : Option Int) (p : String) (ig dl : Bool) {g : Model.GraphHelpers.G Str} (hg : g.WF) : (Model.GraphHelpers.dropEdges lo hi p ig dl g).1.WF := by
  unfold Model.GraphHelpers.dropEdges
  have h1 : (if dl then Model.GraphHelpers.removeEdges g ((g.edges.filter (fun e => e.1.1 = e.1.2)).map Prod.fst) else g).WF := by
    split
    · exact Verif.Model.GraphHelpers.WF_removeEdges hg _
    · exact hg
  dsimp only
  split
  · split
    · exact h1
    · exact Verif.Model.GraphHelpers.WF_removeEdges h1 _
  · exact Verif.Model.GraphHelpers.WF_removeEdges h1 _

/-- What is left of a network that is saved and read. -/
theorem saved {A : Type} {fa : A → Model.GraphHelpers.Attrs} {shuffle : List Str → List Str} (hs : ∀ l, (shuffle l).Perm l) (lo hi : Option Int) (ig dl : Bool)
    {g : Graph Str A (Option Nat)} (hg : g.WF) (hnames : ∀ n, g.hasNode n = true → '\r' ∉ n) (hweights : ∀ u v b, g.edge? u v = some b → ∃ w, b = some w)
    (hkeys : ∀ n a k, g.node? n = some a → ((fa a).get? k).isSome → '\r' ∉ k.toList ∧ k ≠ "ID")
    (hvals : ∀ n a k s, g.node? n = some a → (fa a).get? k = some (.str s) → '\r' ∉ s.toList) :
    ∃ files r, save shuffle lo hi ig dl (dress fa edgeAttrs g) = .ok files ∧ load g.directed files = .ok r ∧ r.WF ∧ r.directed = g.directed ∧
      (∀ n, r.hasNode n = g.hasNode n) ∧
      ∀ u v a, r.edge? u v = some a ↔ ∃ w : Nat, g.edge? u v = some (some w) ∧ InRange lo hi w ∧ (dl = true → u ≠ v) ∧
        a = [("weight".toList, .str (Nat.toDigits 10 w))] := by
  have hd := WF_dress fa edgeAttrs hg
  have hwe : ∀ u v a, (dress fa edgeAttrs g).edge? u v = some a → ∃ w : Nat, g.edge? u v = some (some w) ∧ a = [("weight", .num w)] := by
    intro u v a h
    rw [edge?_dress] at h
    obtain ⟨b, h1, h2⟩ := Option.map_eq_some_iff.1 h
    obtain ⟨w, rfl⟩ := hweights u v b h1
    exact ⟨w, h1, h2.symm⟩
  have hok : (Model.GraphHelpers.dropEdges lo hi "weight" ig dl (dress fa edgeAttrs g)).2 = none := by
    refine ((Verif.Props.C38_raises lo hi "weight" ig dl _ hd).1).2 (.inr fun u v a h _ => ?_)
    obtain ⟨w, _, rfl⟩ := hwe u v a h
    exact .inl ⟨w, rfl⟩
  obtain ⟨d1, d2, d3⟩ := Verif.Props.C38_dropEdges lo hi "weight" ig dl _ hd hok
  have dwf := WF_dropEdges lo hi "weight" ig dl hd
  cases hx : Model.GraphHelpers.dropEdges lo hi "weight" ig dl (dress fa edgeAttrs g) with
  | mk g' err =>
    rw [hx] at hok d1 d2 d3 dwf
    dsimp only at hok d1 d2 d3 dwf
    subst hok
    have hnode : ∀ n, g'.node? n = (g.node? n).map fa := by
      intro n
      rw [← node?_dress fa edgeAttrs]
      unfold node?; rw [d2]
    have hedge : ∀ u v a, g'.edge? u v = some a ↔ ∃ w : Nat, g.edge? u v = some (some w) ∧ InRange lo hi w ∧ (dl = true → u ≠ v) ∧ a = [("weight", .num w)] := by
      intro u v a
      rw [d3]
      constructor
      · rintro ⟨e1, e2, e3⟩
        obtain ⟨w, h1, rfl⟩ := hwe u v a e1
        exact ⟨w, h1, e3 w rfl, e2, rfl⟩
      · rintro ⟨w, h1, h2, h3, rfl⟩
        refine ⟨by rw [edge?_dress, h1]; rfl, h3, fun n hn => ?_⟩
        have : (Model.GraphHelpers.Val.num w) = .num n := by simpa [Dict.get?] using hn
        injection this with this
        rw [← this]; exact h2
    have hedge' : ∀ u v a, (dress cells cells g').edge? u v = some a ↔ ∃ w : Nat, g.edge? u v = some (some w) ∧ InRange lo hi w ∧ (dl = true → u ≠ v) ∧
        a = [("weight".toList, .num w)] := by
      intro u v a
      rw [edge?_dress, Option.map_eq_some_iff]
      constructor
      · rintro ⟨b, h1, h2⟩
        obtain ⟨w, e1, e2, e3, rfl⟩ := (hedge u v b).1 h1
        exact ⟨w, e1, e2, e3, h2.symm⟩
      · rintro ⟨w, e1, e2, e3, rfl⟩
        exact ⟨_, (hedge u v _).2 ⟨w, e1, e2, e3, rfl⟩, rfl⟩
    have hwt : Verif.Props.Writable (dress cells cells g') := by
      refine ⟨?_, ?_, ?_, ?_, ?_⟩
      · intro n hn
        rw [hasNode_dress] at hn
        unfold hasNode at hn
        rw [hnode, Option.isSome_map] at hn
        exact hnames n hn
      · intro n a k h1 h2
        rw [node?_dress, hnode, Option.map_map] at h1
        obtain ⟨b, hb, rfl⟩ := Option.map_eq_some_iff.1 h1
        dsimp only [Function.comp] at h2
        rw [get?_cells, Option.isSome_map] at h2
        obtain ⟨q1, q2⟩ := hkeys n b _ hb h2
        rw [String.toList_ofList] at q1
        refine ⟨q1, fun e => q2 ?_⟩
        rw [e]; decide
      · intro n a k c h1 h2
        rw [node?_dress, hnode, Option.map_map] at h1
        obtain ⟨b, hb, rfl⟩ := Option.map_eq_some_iff.1 h1
        dsimp only [Function.comp] at h2
        rw [get?_cells] at h2
        obtain ⟨x, e1, rfl⟩ := Option.map_eq_some_iff.1 h2
        cases x with
        | num n => trivial
        | str s => exact hvals n b _ s hb e1
      · intro u v a k h1 h2
        obtain ⟨w, _, _, _, rfl⟩ := (hedge' u v a).1 h1
        have : k = "weight".toList := by
          by_contra hk
          have hk' : ¬ "weight".toList = k := fun e => hk e.symm
          unfold Dict.get? at h2
          rw [if_neg hk'] at h2
          cases h2
        subst this
        exact ⟨by unfold Csv.NoCr; decide, by decide, by decide⟩
      · intro u v a k c h1 h2
        obtain ⟨w, _, _, _, rfl⟩ := (hedge' u v a).1 h1
        unfold Dict.get? at h2
        split at h2
        · rw [← Option.some.inj h2]; trivial
        · cases h2
    obtain ⟨files, f1, f2⟩ := Verif.Props.C43_round_trip_partial (dress cells cells g') (WF_dress cells cells dwf) hwt
      (columns shuffle ((dress cells cells g').nodes.map Prod.snd)) (columns shuffle ((dress cells cells g').edges.map Prod.snd)) (columns_ok hs _) (columns_ok hs _)
    have hdir : (dress cells cells g').directed = g.directed := d1
    rw [hdir] at f2
    refine ⟨files, _, ?_, f2, ?_, rfl, ?_, ?_⟩
    · unfold save
      rw [hx]
      dsimp only
      rw [f1]
    · have := WF_dress (Verif.Props.readBack (columns shuffle ((dress cells cells g').nodes.map Prod.snd))) (Verif.Props.readBack (columns shuffle ((dress cells cells g').edges.map Prod.snd)))
        (WF_dress cells cells dwf)
      rw [← hdir]
      exact this
    · intro n
      unfold hasNode node?
      rw [get?_map, Option.isSome_map]
      show ((dress cells cells g').node? n).isSome = _
      rw [node?_dress, Option.isSome_map, hnode, Option.isSome_map]
      rfl
    · intro u v a
      have he : (⟨g.directed, (dress cells cells g').nodes.map (fun n => (n.1, Verif.Props.readBack (columns shuffle ((dress cells cells g').nodes.map Prod.snd)) n.2)),
          (dress cells cells g').edges.map (fun e => (e.1, Verif.Props.readBack (columns shuffle ((dress cells cells g').edges.map Prod.snd)) e.2))⟩ : Model.GraphFiles.G).edge? u v =
          ((dress cells cells g').edge? u v).map (Verif.Props.readBack (columns shuffle ((dress cells cells g').edges.map Prod.snd))) := by
        have := getE_map (Verif.Props.readBack (columns shuffle ((dress cells cells g').edges.map Prod.snd))) (dress cells cells g').directed (dress cells cells g').edges (u, v)
        rw [hdir] at this
        unfold edge?
        rw [hdir]
        exact this
      rw [he, Option.map_eq_some_iff]
      have hback : ∀ w : Nat, (dress cells cells g').edge? u v = some [("weight".toList, .num w)] →
          Verif.Props.readBack (columns shuffle ((dress cells cells g').edges.map Prod.snd)) [("weight".toList, .num w)] = [("weight".toList, .str (Nat.toDigits 10 w))] := by
        intro w hw
        have hcol : columns shuffle ((dress cells cells g').edges.map Prod.snd) = ["weight".toList] := by
          have hmem : ∀ k, k ∈ columns shuffle ((dress cells cells g').edges.map Prod.snd) ↔ k = "weight".toList := by
            intro k
            rw [(columns_ok hs _).2]
            constructor
            · rintro ⟨b, hb, hk⟩
              obtain ⟨e, he, rfl⟩ := List.mem_map.1 hb
              have := Verif.Props.mem_getE (WF_dress cells cells dwf).edges he
              obtain ⟨w', _, _, _, e'⟩ := (hedge' e.1.1 e.1.2 e.2).1 this
              rw [e'] at hk
              by_contra hne
              have hk' : ¬ "weight".toList = k := fun e => hne e.symm
              unfold Dict.get? at hk
              rw [if_neg hk'] at hk
              cases hk
            · rintro rfl
              obtain ⟨e, he, _, he2⟩ := (Verif.Model.GraphHelpers.edge?_eq_some_iff (WF_dress cells cells dwf) u v _).1 hw
              exact ⟨e.2, List.mem_map_of_mem he, by rw [he2]; rfl⟩
          have hnd := (columns_ok hs ((dress cells cells g').edges.map Prod.snd)).1
          generalize columns shuffle ((dress cells cells g').edges.map Prod.snd) = l at hmem hnd
          cases l with
          | nil => exact absurd ((hmem _).2 rfl) (by simp)
          | cons x l =>
            have hx' := (hmem x).1 (by simp)
            cases l with
            | nil => rw [hx']
            | cons y l =>
              have hy' := (hmem y).1 (by simp)
              rw [hx', hy'] at hnd
              simp at hnd
        rw [hcol]
        have : Csv.showInt (w : Int) = Nat.toDigits 10 w := by
          unfold Csv.showInt
          rw [if_neg (by omega)]; rfl
        show [("weight".toList, Cell.str (Csv.showInt (w : Int)))] = _
        rw [this]
      constructor
      · rintro ⟨b, h1, rfl⟩
        obtain ⟨w, e1, e2, e3, rfl⟩ := (hedge' u v b).1 h1
        exact ⟨w, e1, e2, e3, hback w h1⟩
      · rintro ⟨w, e1, e2, e3, rfl⟩
        have := (hedge' u v _).2 ⟨w, e1, e2, e3, rfl⟩
        exact ⟨_, this, hback w this⟩

/-- A network that was read has texts as weights, which cannot be compared with a number. -/
theorem again {r : Model.GraphFiles.G} (hr : r.WF) (hstr : ∀ u v a, r.edge? u v = some a → ∃ s, a = [("weight".toList, .str s)]) (lo hi : Option Int) (hb : lo ≠ none ∨ hi ≠ none)
    (ig dl : Bool) {u v : Str} (he : (r.edge? u v).isSome) (hl : dl = true → u ≠ v) : (dropAgain lo hi ig dl r).2 = some .typeError := by
  have hd := WF_dress uncells uncells hr
  have hs : ∀ u v a, (dress uncells uncells r).edge? u v = some a → ∃ s, a.get? "weight" = some (.str s) := by
    intro u v a h
    rw [edge?_dress] at h
    obtain ⟨b, h1, rfl⟩ := Option.map_eq_some_iff.1 h
    obtain ⟨s, rfl⟩ := hstr u v b h1
    exact ⟨String.ofList s, rfl⟩
  obtain ⟨a0, ha0⟩ := Option.isSome_iff_exists.1 he
  have ha1 : (dress uncells uncells r).edge? u v = some (uncells a0) := by rw [edge?_dress, ha0]; rfl
  unfold dropAgain Model.GraphHelpers.dropEdges
  have hw : (if dl then Model.GraphHelpers.removeEdges (dress uncells uncells r) (((dress uncells uncells r).edges.filter (fun e => e.1.1 = e.1.2)).map Prod.fst)
      else dress uncells uncells r).WF ∧
      (∀ u v a, (if dl then Model.GraphHelpers.removeEdges (dress uncells uncells r) (((dress uncells uncells r).edges.filter (fun e => e.1.1 = e.1.2)).map Prod.fst)
      else dress uncells uncells r).edge? u v = some a → (dress uncells uncells r).edge? u v = some a) ∧
      (if dl then Model.GraphHelpers.removeEdges (dress uncells uncells r) (((dress uncells uncells r).edges.filter (fun e => e.1.1 = e.1.2)).map Prod.fst)
      else dress uncells uncells r).edge? u v = some (uncells a0) := by
    cases dl with
    | false => exact ⟨hd, fun _ _ _ h => h, ha1⟩
    | true =>
      refine ⟨Model.GraphHelpers.WF_removeEdges hd _, fun _ _ _ h => ((Model.GraphHelpers.edge?_removeEdges hd _ _ _ _).1 h).1, ?_⟩
      refine (Model.GraphHelpers.edge?_removeEdges hd _ _ _ _).2 ⟨ha1, fun p hp => ?_⟩
      obtain ⟨e, he, rfl⟩ := List.mem_map.1 hp
      have hee : e.1.1 = e.1.2 := by simpa using (List.mem_filter.1 he).2
      by_contra hc
      rw [Bool.not_eq_false, sameEdge_iff] at hc
      rcases hc with hc | ⟨_, hc, hc'⟩
      · rw [hc] at hee; exact hl rfl hee
      · dsimp only at hc hc'
        exact hl rfl (by rw [← hc, ← hc', hee])
  dsimp only
  generalize (if dl then Model.GraphHelpers.removeEdges (dress uncells uncells r) (((dress uncells uncells r).edges.filter (fun e => e.1.1 = e.1.2)).map Prod.fst)
      else dress uncells uncells r) = g1 at hw
  obtain ⟨w1, w2, w3⟩ := hw
  rw [if_pos (by rcases hb with h | h
                 · cases lo with
                   | none => exact absurd rfl h
                   | some _ => rfl
                 · cases hi with
                   | none => exact absurd rfl h
                   | some _ => simp)]
  cases hx : g1.edges with
  | nil =>
    obtain ⟨e, he', _⟩ := (Model.GraphHelpers.edge?_eq_some_iff w1 u v _).1 w3
    rw [hx] at he'; cases he'
  | cons e rest =>
    obtain ⟨s, hs'⟩ := hs _ _ _ (w2 _ _ _ (Model.GraphHelpers.edge?_of_mem w1 (e := e) (by rw [hx]; simp)))
    unfold Model.GraphHelpers.dropLoop
    rw [hs']

end Verif.Lemmas.NetworkFiles
