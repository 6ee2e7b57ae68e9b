import Verif.Lemmas.NetworkFiles
import Verif.Props.Pipeline
import Verif.Props.FileTables
import Verif.Props.NetworkTypes

/-! # C126: from a Web of Science file to a network, its weak edges dropped, saved and read again -/
set_option autoImplicit false
set_option linter.unusedSimpArgs false
namespace Verif.Props.NetworkFiles
open Verif.Py Verif.Model.WosFields Verif.Model.RecordAccess Verif.Model.Pipeline Verif.Model.FileTables Verif.Model.NetworkFiles
open Verif.Spec.Pipeline Verif.Spec.FileTables Verif.Spec Verif.Lemmas.Pipeline Verif.Lemmas.NetworkFiles Verif.Props.Pipeline

section
variable {W : World} {order : List Model.Wos.Rec → List Model.Wos.Rec} (before : Model.Wos.Rec → List (Op String FVal)) {origin : Str} {papers : List Paper}
  {shuffle : List Str → List Str}

theorem edgeFor_some {n : Nat} {w : Nat} : edgeFor true n = some (some w) ↔ w = n ∧ 0 < n := by
  unfold edgeFor
  by_cases h : n = 0
  · subst h; simp
  · rw [if_neg h, if_pos rfl]
    constructor
    · intro e; injection e with e; injection e with e; omega
    · rintro ⟨rfl, _⟩; rfl

theorem edgeFor_weight {n : Nat} {b : Option Nat} (h : edgeFor true n = some b) : ∃ w, b = some w := by
  unfold edgeFor at h
  split at h
  · cases h
  · exact ⟨n, (Option.some.inj h).symm⟩

theorem lines_noCR {p : Paper} (hp : PaperOk W.ws p) (tag : String) {n : Str} (hn : n ∈ linesOf p tag) : '\r' ∉ n := by
  unfold linesOf at hn
  cases hf : p.find? (fun f => decide (f.1 = tag.toList)) with
  | none => rw [hf] at hn; cases hn
  | some f =>
    rw [hf] at hn
    exact (hp.noCR f (List.mem_of_find?_eq_some hf)).2 n hn

theorem coAuthors_wf {useShort weighted count : Bool} {text : Str} {g : Model.CoNetworks.CoNet Str Unit}
    (h : coAuthors W before order useShort weighted count text = some (.ok g)) : g.WF ∧ g.directed = false := by
  unfold coAuthors at h
  obtain ⟨rs, _, h2⟩ := Option.map_eq_some_iff.1 h
  cases hm : rs.mapM (fun r => do Model.Pipeline.names (← value W before (if useShort then "authorsShort" else "authorsFull") r)) with
  | error e => rw [hm] at h2; cases h2
  | ok auths =>
    rw [hm] at h2
    have : Model.CoNetworks.networkCoAuthor weighted false count (fun _ => true) id (fun _ => ()) auths = g := Except.ok.inj h2
    rw [← this]
    have hc := Verif.Props.C15_edges_nodes weighted false count (fun _ => true) id (fun _ => ()) auths
    exact ⟨hc.1, hc.2.1⟩

theorem twoMode_wf {directed nodeCount edgeWeight recordType : Bool} {k1 k2 : String} {text : Str} {g : Model.Networks.Net Str}
    (h : twoMode W before order directed nodeCount edgeWeight recordType k1 k2 text = some (.ok g)) :
    g.WF ∧ ∀ n a, g.node? n = some a → a.type = none ∨ a.type = some k1 ∨ a.type = some k2 := by
  unfold twoMode at h
  obtain ⟨rs, _, h2⟩ := Option.map_eq_some_iff.1 h
  cases hm : rs.mapM (fun r => do return (← value W before k1 r, ← value W before k2 r)) with
  | error e => rw [hm] at h2; cases h2
  | ok vals =>
    rw [hm] at h2
    have : Model.Networks.networkTwoMode directed nodeCount edgeWeight recordType nodeText nodeText
      (fun (v : Option FVal × Option FVal) t => (if t = k1 then v.1 else v.2).map fieldVal) k1 k2 vals = g := Except.ok.inj h2
    rw [← this]
    refine ⟨(Verif.Props.C13_edges_nodes directed nodeCount edgeWeight recordType nodeText nodeText _ k1 k2 vals).1, fun n a ha => ?_⟩
    cases recordType with
    | false => exact .inl ((Verif.Props.NetworkTypes.C13_left_out _ _ _ _ _ _ _ _ _ _ _ _ ha).2 rfl)
    | true =>
      rcases Verif.Props.C13_types _ _ _ _ _ _ _ _ _ _ _ ha with h | h
      · exact .inr (.inl h.1)
      · exact .inr (.inr h.1)

/-- **C126, co-authors.** The network of co-authors of a file is made, the edges outside of the bounds are dropped and, when asked, those of a name with itself, and the rest is
saved. What is read from the two files has all names that papers list, and joins two names when the number of times papers list both is within the bounds; this number is the only
attribute of the edge, as a text. -/
theorem C126_coauthors (h : Setting W order) (hs : ∀ l, (shuffle l).Perm l) (hf : FileOk W.ws origin papers) (useShort count : Bool) (lo hi : Option Int) (ig dl : Bool) :
    ∃ files r, coAuthorFiles W before order shuffle useShort count lo hi ig dl (fileText origin papers) = some (.ok (.ok files)) ∧
      load false files = .ok r ∧ r.WF ∧ r.directed = false ∧
      (∀ n, r.hasNode n = true ↔ ∃ p ∈ papers, n ∈ linesOf p (if useShort then "AU" else "AF")) ∧
      ∀ u v a, r.edge? u v = some a ↔ ∃ n : Nat, n = (papers.map (fun p => pairsShared (linesOf p (if useShort then "AU" else "AF")) u v)).sum ∧ 0 < n ∧
        InRange lo hi n ∧ (dl = true → u ≠ v) ∧ a = [("weight".toList, .str (Nat.toDigits 10 n))] := by
  obtain ⟨g, g1, g2, g3⟩ := C104_coauthors before h hf useShort true count
  obtain ⟨w1, w2⟩ := coAuthors_wf before g1
  have hkey : ∀ (a : Model.CoNetworks.CoAttr Unit) k v, (authorAttrs a).get? k = some v → k = "count" ∧ ∃ n, v = .num n := by
    intro a k v hk
    unfold authorAttrs at hk
    split at hk
    · cases hk
    · unfold Dict.get? at hk
      split at hk
      · rename_i e
        exact ⟨e.symm, _, (Option.some.inj hk).symm⟩
      · cases hk
  obtain ⟨files, r, f1, f2, f0, f3, f4, f5⟩ := saved (fa := authorAttrs) hs lo hi ig dl w1
    (fun n hn => by obtain ⟨p, hp, ha⟩ := (g3 n).1 hn; exact lines_noCR (hf.each p hp) _ ha)
    (fun u v b hb => edgeFor_weight ((g2 u v).symm.trans hb))
    (fun n a k _ hk => by
      obtain ⟨v, hv⟩ := Option.isSome_iff_exists.1 hk
      rw [(hkey a k v hv).1]
      exact ⟨by decide, by decide⟩)
    (fun n a k s _ hk => by
      obtain ⟨m, hm⟩ := (hkey a k _ hk).2
      cases hm)
  rw [w2] at f2 f3
  refine ⟨files, r, ?_, f2, f0, f3, fun n => by rw [f4, g3], fun u v a => ?_⟩
  · unfold coAuthorFiles
    rw [g1]
    show some (Except.ok (save shuffle lo hi ig dl (dress authorAttrs edgeAttrs g))) = _
    rw [f1]
  · rw [f5]
    constructor
    · rintro ⟨w, e1, e2⟩
      rw [g2, edgeFor_some] at e1
      exact ⟨w, e1.1, by omega, e2⟩
    · rintro ⟨n, e1, e2, e3⟩
      exact ⟨n, by rw [g2, edgeFor_some]; exact ⟨e1, by omega⟩, e3⟩

/-- In words: when no paper lists a name twice, different names are joined after reading exactly when the number of papers that list both is positive and within the bounds. -/
theorem C126_coauthors_papers (h : Setting W order) (hs : ∀ l, (shuffle l).Perm l) (hf : FileOk W.ws origin papers) (useShort count : Bool) (lo hi : Option Int) (ig dl : Bool)
    (hn : ∀ p ∈ papers, (linesOf p (if useShort then "AU" else "AF")).Nodup) :
    ∃ files r, coAuthorFiles W before order shuffle useShort count lo hi ig dl (fileText origin papers) = some (.ok (.ok files)) ∧ load false files = .ok r ∧
      ∀ u v, u ≠ v → ∀ n : Nat, n = papers.countP (fun p => decide (u ∈ linesOf p (if useShort then "AU" else "AF") ∧ v ∈ linesOf p (if useShort then "AU" else "AF"))) →
        (0 < n ∧ InRange lo hi n → r.edge? u v = some [("weight".toList, .str (Nat.toDigits 10 n))]) ∧ (¬ (0 < n ∧ InRange lo hi n) → r.edge? u v = none) := by
  obtain ⟨files, r, f1, f2, f0, _, _, f5⟩ := C126_coauthors before h hs hf useShort count lo hi ig dl
  refine ⟨files, r, f1, f2, fun u v huv n hn' => ?_⟩
  have hsum : ∀ ps : List Paper, (∀ p ∈ ps, (linesOf p (if useShort then "AU" else "AF")).Nodup) →
      (ps.map (fun p => pairsShared (linesOf p (if useShort then "AU" else "AF")) u v)).sum =
      ps.countP (fun p => decide (u ∈ linesOf p (if useShort then "AU" else "AF") ∧ v ∈ linesOf p (if useShort then "AU" else "AF"))) := by
    intro ps hps
    induction ps with
    | nil => rfl
    | cons p ps ih =>
      rw [List.map_cons, List.sum_cons, ih (fun q hq => hps q (List.mem_cons_of_mem _ hq)), List.countP_cons, Nat.add_comm]
      congr 1
      rw [pairs_nodup (hps p (by simp)) huv]
      simp
  have hn'' := hn'.trans (hsum papers hn).symm
  constructor
  · rintro ⟨h1, h2⟩
    exact (f5 u v _).2 ⟨n, hn'', h1, h2, fun _ => huv, rfl⟩
  · intro hno
    cases he : r.edge? u v with
    | none => rfl
    | some a =>
      obtain ⟨m, e1, e2, e3, _⟩ := (f5 u v a).1 he
      rw [← hn''] at e1
      subst e1
      exact absurd ⟨e2, e3⟩ hno

/-- **C126, two-mode networks.** The same for the values of two tags, directed or not. The names of the tags and the values have no carriage return. -/
theorem C126_two_mode (h : Setting W order) (hs : ∀ l, (shuffle l).Perm l) (hf : FileOk W.ws origin papers) {k1 k2 : String} {i1 i2 : Paper → List Str}
    (h1 : Items papers k1 i1) (h2 : Items papers k2 i2) (hk : k1 ≠ k2) (hcr : '\r' ∉ k1.toList ∧ '\r' ∉ k2.toList) (hvals : ∀ p ∈ papers, ∀ n, n ∈ i1 p ∨ n ∈ i2 p → '\r' ∉ n)
    (directed nodeCount recordType : Bool) (lo hi : Option Int) (ig dl : Bool) :
    ∃ files r, twoModeFiles W before order shuffle directed nodeCount recordType k1 k2 lo hi ig dl (fileText origin papers) = some (.ok (.ok files)) ∧
      load directed files = .ok r ∧ r.WF ∧ r.directed = directed ∧
      (∀ n, r.hasNode n = true ↔ ∃ p ∈ papers, n ∈ i1 p ∨ n ∈ i2 p) ∧
      ∀ u v a, r.edge? u v = some a ↔ ∃ n : Nat, n = (papers.map (fun p => crossShared directed (i1 p) (i2 p) u v)).sum ∧ 0 < n ∧
        InRange lo hi n ∧ (dl = true → u ≠ v) ∧ a = [("weight".toList, .str (Nat.toDigits 10 n))] := by
  obtain ⟨g, g1, g2, g3, g4⟩ := FileTables.C122_two_mode before h hf h1 h2 hk directed nodeCount true recordType
  obtain ⟨w1, w2⟩ := twoMode_wf before g1
  have hkey : ∀ (a : Model.Networks.NodeAttr) k v, (tagAttrs a).get? k = some v → (k = "type" ∧ ∃ t, a.type = some t ∧ v = .str t) ∨ (k = "count" ∧ ∃ n, v = .num n) := by
    intro a k v hk
    obtain ⟨c, t⟩ := a
    have hmem : (k, v) ∈ tagAttrs ⟨c, t⟩ := by
      have : ∀ (l : Model.GraphHelpers.Attrs), Dict.get? l k = some v → (k, v) ∈ l := by
        intro l
        induction l with
        | nil => intro h; cases h
        | cons p l ih =>
          intro h
          unfold Dict.get? at h
          split at h
          · rename_i e
            rw [← Option.some.inj h, ← e]
            exact List.mem_cons_self
          · exact List.mem_cons_of_mem _ (ih h)
      exact this _ hk
    unfold tagAttrs at hmem
    rcases List.mem_append.1 hmem with hm | hm
    · cases t with
      | none => cases hm
      | some t =>
        have := List.mem_singleton.1 hm
        injection this with q1 q2
        exact .inl ⟨q1, t, rfl, q2⟩
    · cases c with
      | none => cases hm
      | some c =>
        have := List.mem_singleton.1 hm
        injection this with q1 q2
        exact .inr ⟨q1, _, q2⟩
  obtain ⟨files, r, f1, f2, f0, f3, f4, f5⟩ := saved (fa := tagAttrs) hs lo hi ig dl w1
    (fun n hn => by obtain ⟨p, hp, ha⟩ := (g4 n).1 hn; exact hvals p hp n ha)
    (fun u v b hb => edgeFor_weight ((g3 u v).symm.trans hb))
    (fun n a k _ hk => by
      obtain ⟨v, hv⟩ := Option.isSome_iff_exists.1 hk
      rcases hkey a k v hv with q | q <;> rw [q.1] <;> exact ⟨by decide, by decide⟩)
    (fun n a k s ha hk => by
      rcases hkey a k _ hk with ⟨_, t, q1, q2⟩ | ⟨_, m, q⟩
      · injection q2 with q2
        subst q2
        rcases w2 n a ha with e | e | e <;> rw [q1] at e
        · cases e
        · rw [Option.some.inj e]; exact hcr.1
        · rw [Option.some.inj e]; exact hcr.2
      · cases q)
  rw [g2] at f2 f3
  refine ⟨files, r, ?_, f2, f0, f3, fun n => by rw [f4, g4], fun u v a => ?_⟩
  · unfold twoModeFiles
    rw [g1]
    show some (Except.ok (save shuffle lo hi ig dl (dress tagAttrs edgeAttrs g))) = _
    rw [f1]
  · rw [f5]
    constructor
    · rintro ⟨w, e1, e2⟩
      rw [g3, edgeFor_some] at e1
      exact ⟨w, e1.1, by omega, e2⟩
    · rintro ⟨n, e1, e2, e3⟩
      exact ⟨n, by rw [g3, edgeFor_some]; exact ⟨e1, by omega⟩, e3⟩

/-- **C126, bounds after reading.** A network of co-authors that was saved and read cannot be given to `dropEdges` with a bound: the weights are texts now, and as soon as there is
an edge to look at, which is one between different names or, without `dropSelfLoops`, any, the comparison raises. Whatever was dropped before saving. -/
theorem C126_bounds_after_reading (h : Setting W order) (hs : ∀ l, (shuffle l).Perm l) (hf : FileOk W.ws origin papers) (useShort count : Bool) (lo hi : Option Int) (ig dl : Bool) :
    ∃ files r, coAuthorFiles W before order shuffle useShort count lo hi ig dl (fileText origin papers) = some (.ok (.ok files)) ∧ load false files = .ok r ∧
      ∀ (lo' hi' : Option Int) (ig' dl' : Bool), lo' ≠ none ∨ hi' ≠ none → ∀ u v, (r.edge? u v).isSome → (dl' = true → u ≠ v) →
        (dropAgain lo' hi' ig' dl' r).2 = some .typeError := by
  obtain ⟨files, r, f1, f2, f0, _, _, f5⟩ := C126_coauthors before h hs hf useShort count lo hi ig dl
  refine ⟨files, r, f1, f2, fun lo' hi' ig' dl' hb u v he hl => ?_⟩
  refine again f0 (fun u v a ha => ?_) lo' hi' hb ig' dl' he hl
  · obtain ⟨n, _, _, _, _, e⟩ := (f5 u v a).1 ha
    exact ⟨_, e⟩

end

/-- Ada and Bob wrote two papers together; with at least two papers asked for, Cy, who wrote one, is a node without edges. -/
example : ∃ files r, coAuthorFiles w (fun _ => [.item "AF"]) List.reverse List.reverse false true (some 2) none false false (fileText "FN Clarivate".toList Pipeline.file) =
    some (.ok (.ok files)) ∧ load false files = .ok r ∧ r.edge? "Ada".toList "Bob".toList = some [("weight".toList, .str "2".toList)] ∧
    r.edge? "Bob".toList "Cy".toList = none := by
  obtain ⟨files, r, h1, h2, h3⟩ := C126_coauthors_papers (fun _ => [.item "AF"]) setting List.reverse_perm Pipeline.file_ok false true (some 2) none false false (by decide +kernel)
  refine ⟨files, r, h1, h2, ((h3 _ _ (by decide) 2 (by decide +kernel)).1 ⟨by decide, ?_⟩).trans (by decide +kernel),
    (h3 _ _ (by decide) 1 (by decide +kernel)).2 (fun q => ?_)⟩
  · unfold InRange; simp
  · have := q.2
    unfold InRange at this
    simp at this

example : ∃ files r, coAuthorFiles w (fun _ => []) List.reverse List.reverse false true (some 1) none true true (fileText "FN Clarivate".toList Pipeline.file) =
    some (.ok (.ok files)) ∧ load false files = .ok r ∧ r.hasNode "Cy".toList = true ∧ (r.edge? "Ada".toList "Cy".toList).isSome := by
  obtain ⟨files, r, h1, h2, _, _, h4, h5⟩ := C126_coauthors (fun _ => []) setting List.reverse_perm Pipeline.file_ok false true (some 1) none true true
  refine ⟨files, r, h1, h2, (h4 _).2 (by decide +kernel), ?_⟩
  rw [(h5 _ _ _).2 ⟨1, by decide +kernel, by decide, by unfold InRange; simp, fun _ => by decide, rfl⟩]
  rfl

/-- Whoever saves first and asks for two papers afterwards gets a TypeError. -/
example : ∃ files r, coAuthorFiles w (fun _ => []) List.reverse List.reverse false true none none false false (fileText "FN Clarivate".toList Pipeline.file) =
    some (.ok (.ok files)) ∧ load false files = .ok r ∧ (dropAgain (some 2) none false false r).2 = some .typeError := by
  obtain ⟨files', r', h1', h2', h3'⟩ := C126_coauthors_papers (fun _ => []) setting List.reverse_perm Pipeline.file_ok false true none none false false (by decide +kernel)
  obtain ⟨files, r, h1, h2, h3⟩ := C126_bounds_after_reading (fun _ => []) setting List.reverse_perm Pipeline.file_ok false true none none false false
  have hff : files' = files := Except.ok.inj (Except.ok.inj (Option.some.inj (h1'.symm.trans h1)))
  subst hff
  have hrr : r' = r := Except.ok.inj (h2'.symm.trans h2)
  subst hrr
  have he := (h3' "Ada".toList "Bob".toList (by decide) 2 (by decide +kernel)).1 ⟨by decide, by unfold InRange; simp⟩
  exact ⟨files', r', h1, h2, h3 (some 2) none false false (.inl (by simp)) _ _ (by rw [he]; rfl) (by simp)⟩

/-- Ada has the subject Physics once. -/
example : ∃ files r, twoModeFiles w (fun _ => []) List.reverse List.reverse true true true "AF" "subjects" none (some 1) false true (fileText "FN Clarivate".toList Pipeline.file) =
    some (.ok (.ok files)) ∧ load true files = .ok r ∧ r.edge? "Ada".toList "Physics".toList = some [("weight".toList, .str "1".toList)] ∧ r.hasNode "Cy".toList = true := by
  obtain ⟨files, r, h1, h2, _, _, h4, h5⟩ := C126_two_mode (fun _ => []) setting List.reverse_perm Pipeline.file_ok FileTables.authors FileTables.subjects (by decide) (by decide)
    (by
      have h : ∀ p ∈ Pipeline.file, ∀ n ∈ linesOf p "AF" ++ (if linesOf p "WC" = [] then [] else ["Physics".toList, "Applied Mathematics".toList]), '\r' ∉ n := by decide +kernel
      intro p hp n hn
      exact h p hp n (List.mem_append.2 hn)) true true true none (some 1) false true
  exact ⟨files, r, h1, h2, (h5 _ _ _).2 ⟨1, by decide +kernel, by decide, by unfold InRange; simp, fun _ => by decide, by decide +kernel⟩, (h4 _).2 (by decide +kernel)⟩

end Verif.Props.NetworkFiles
