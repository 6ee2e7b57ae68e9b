import Verif.Props.ScopusPipeline
import Verif.Props.PipelineSaved

/-! # C115: a Scopus file that was saved once is not changed by saving it again, and what the savings together change -/
set_option autoImplicit false
set_option linter.unusedSimpArgs false
namespace Verif.Props.ScopusSaved
open Verif.Py Verif.Model.OtherFields Verif.Model.RecordAccess Verif.Model.ScopusPipeline Verif.Spec.ScopusPipeline Verif.Spec
open Verif.Spec.Pipeline (Orders)
open Verif.Lemmas.ScopusPipeline Verif.Model.Series Verif.Props.ScopusPipeline Verif.Spec.Scopus

section
variable {W : World} {order order' : List Model.Scopus.Rec → List Model.Scopus.Rec} {before before' : Model.Scopus.Rec → List (Op String SVal)} {papers : List Paper}

theorem requote_twice (p : Paper) : requote (requote p) = requote p := rfl

theorem plain_requote {p : Paper} (h : Plain p) : Plain (requote p) := ⟨fun c _ s hs => (by cases hs), h.2⟩

theorem ne_of_perm {α : Type} {l l' : List α} (h : l'.Perm l) (hn : l ≠ []) : l' ≠ [] := fun e => hn (by rw [e] at h; exact h.nil_eq.symm)

/-- **C115, saved any number of times.** Reading a file and writing it, once or more and whatever the orders of the sets, succeeds and gives the same papers in some
order, with every cell in quotes. -/
theorem C115_saved (hf : FileOk papers) (hne : papers ≠ []) (hpl : ∀ p ∈ papers, Plain p)
    (orders : List (List Model.Scopus.Rec → List Model.Scopus.Rec)) (ho : Orders orders) (hon : orders ≠ []) :
    ∃ papers' : List Paper, papers'.Perm papers ∧ resaved orders (fileText papers) = some (fileText (papers'.map requote)) ∧ FileOk (papers'.map requote) := by
  induction orders generalizing papers with
  | nil => exact absurd rfl hon
  | cons o os ih =>
    obtain ⟨ps, h1, h2⟩ := C110_rewritten (order := o) (ho o (by simp)) hf hne
    have h3 := requote_file hf h1 hpl
    have hps := ne_of_perm h1 hne
    by_cases hos : os = []
    · subst hos
      exact ⟨ps, h1, by rw [resaved, h2, Option.bind_some]; rfl, h3⟩
    · obtain ⟨qs, i1, i2, i3⟩ := ih (papers := ps.map requote) h3 (by simpa using hps)
        (by
          intro q hq
          obtain ⟨p, hp, rfl⟩ := List.mem_map.1 hq
          exact plain_requote (hpl p (h1.mem_iff.1 hp)))
        (fun q hq => ho q (by simp [hq])) hos
      obtain ⟨rs, r1, r2⟩ := preimage i1
      have e : qs.map requote = rs.map requote := by rw [r2, List.map_map]; exact List.map_congr_left (fun p _ => requote_twice p)
      exact ⟨rs, r1.trans h1, by rw [resaved, h2, Option.bind_some, i2, e], by rw [← e]; exact i3⟩

/-- Every tag reads the same, whatever was read before. -/
theorem value_before (p : Paper) (k : String) : value W before' k (toRec p) = value W before k (toRec p) := by
  have e : ∀ b : Model.Scopus.Rec → List (Op String SVal), (getitem (cls W) 3 (held W (b (toRec p)) (toRec p)) k).1 =
      (getitem (cls W) 3 (fresh (strFields p)) k).1 := fun b =>
    (C28_history_independent (C28_scopus_class (cls W).proc W.truthy W.fin) (strFields p) (noClash W _) (b (toRec p)) k).2.1
  unfold value
  rw [e, e]

/-- **C115, the records.** From the first saving on nothing changes: however often a file was saved, the collection made from what was saved has the same records, and
each of them gives the same under every tag, whatever was read of them. -/
theorem C115_records (ho : ∀ rs, (order rs).Perm rs) (ho' : ∀ rs, (order' rs).Perm rs) (hf : FileOk papers) (hne : papers ≠ []) (hpl : ∀ p ∈ papers, Plain p)
    (orders orders' : List (List Model.Scopus.Rec → List Model.Scopus.Rec)) (hos : Orders orders) (hon : orders ≠ []) (hos' : Orders orders') (hon' : orders' ≠ []) :
    ∃ text text' rs rs', resaved orders (fileText papers) = some text ∧ resaved orders' (fileText papers) = some text' ∧ records order text = some rs ∧
      records order' text' = some rs' ∧ rs.length = papers.length ∧ rs'.Perm rs ∧ ∀ r ∈ rs, ∀ k, value W before' k r = value W before k r := by
  obtain ⟨ps, h1, h2, h3⟩ := C115_saved hf hne hpl orders hos hon
  obtain ⟨qs, i1, i2, i3⟩ := C115_saved hf hne hpl orders' hos' hon'
  refine ⟨_, _, _, _, h2, i2, records_eq order h3, records_eq order' i3, ?_, ?_, ?_⟩
  · rw [(ho _).length_eq, List.length_map, List.length_map, h1.length_eq]
  · exact (ho' _).trans ((((i1.trans h1.symm).map requote).map toRec).trans (ho _).symm)
  · intro r hr k
    obtain ⟨p, _, rfl⟩ := List.mem_map.1 ((ho _).mem_iff.1 hr)
    exact value_before p k

/-- **C115, networks.** From the first saving on the network of any tag keeps its edges and nodes, with their counts. -/
theorem C115_one_mode (ho : ∀ rs, (order rs).Perm rs) (ho' : ∀ rs, (order' rs).Perm rs) (hf : FileOk papers) (hne : papers ≠ []) (hpl : ∀ p ∈ papers, Plain p)
    (orders orders' : List (List Model.Scopus.Rec → List Model.Scopus.Rec)) (hos : Orders orders) (hon : orders ≠ []) (hos' : Orders orders') (hon' : orders' ≠ [])
    (k : String) (nodeCount edgeWeight : Bool) (text : Str) (ht : resaved orders (fileText papers) = some text)
    (g : Model.Networks.Net Str) (hg : oneMode W before order k nodeCount edgeWeight text = some (.ok g)) :
    ∃ text' g', resaved orders' (fileText papers) = some text' ∧ oneMode W before' order' k nodeCount edgeWeight text' = some (.ok g') ∧
      (∀ a b, g'.edge? a b = g.edge? a b) ∧ ∀ a, g'.node? a = g.node? a := by
  obtain ⟨text₀, text', rs, rs', t0, t1, t2, t3, -, t4, t5⟩ := C115_records (W := W) (before := before) (before' := before') ho ho' hf hne hpl orders orders' hos hon hos' hon'
  obtain rfl := Option.some.inj (ht.symm.trans t0)
  unfold oneMode at hg
  rw [t2] at hg
  have hg := Option.some.inj hg
  dsimp only at hg
  cases hm : rs.mapM (value W before k) with
  | error e => rw [hm] at hg; cases hg
  | ok vs =>
    rw [hm] at hg
    obtain ⟨vs', m1, m2⟩ := PipelineSaved.mapM_perm _ (value W before' k) rs rs' t4 (fun r hr => t5 r hr k) vs hm
    obtain rfl := Except.ok.inj hg
    refine ⟨text', _, t1, by unfold oneMode; rw [t3, Option.map_some, m1]; rfl, ?_⟩
    exact Verif.Props.C12_order_independent nodeCount edgeWeight nodeText (fun (v : Option SVal) (_ : Unit) => v.map fieldVal) [()] vs' vs m2

/-- **C115, tables.** From the first saving on `rankedSeries` of any tag keeps its entries with their counts. -/
theorem C115_ranked (ho : ∀ rs, (order rs).Perm rs) (ho' : ∀ rs, (order' rs).Perm rs) (hf : FileOk papers) (hne : papers ≠ []) (hpl : ∀ p ∈ papers, Plain p)
    (orders orders' : List (List Model.Scopus.Rec → List Model.Scopus.Rec)) (hos : Orders orders) (hon : orders ≠ []) (hos' : Orders orders') (hon' : orders' ≠ [])
    (k : String) (gf : Bool) (lim : Option (List SVal)) (text : Str) (ht : resaved orders (fileText papers) = some text) (l : List (SVal × Nat))
    (hl : ranked W before order k true false gf false lim text = some (.ok (.ok (.pairs l)))) :
    ∃ text' l', resaved orders' (fileText papers) = some text' ∧ ranked W before' order' k true false gf false lim text' = some (.ok (.ok (.pairs l'))) ∧
      l'.Perm l ∧ (gf = true → l'.Pairwise (fun a b => b.2 ≤ a.2)) ∧ (gf = false → l'.Pairwise (fun a b => a.2 ≤ b.2)) := by
  obtain ⟨text₀, text', rs, rs', t0, t1, t2, t3, -, t4, t5⟩ := C115_records (W := W) (before := before) (before' := before') ho ho' hf hne hpl orders orders' hos hon hos' hon'
  obtain rfl := Option.some.inj (ht.symm.trans t0)
  unfold ranked at hl
  rw [t2] at hl
  have hl := Option.some.inj hl
  dsimp only at hl
  cases hm : rs.mapM (value W before k) with
  | error e => rw [hm] at hl; cases hl
  | ok vs =>
    rw [hm] at hl
    obtain ⟨vs', m1, m2⟩ := PipelineSaved.mapM_perm _ (value W before' k) rs rs' t4 (fun r hr => t5 r hr k) vs hm
    have hl := Except.ok.inj hl
    obtain ⟨L, a1, ⟨a2, a3⟩, -, -⟩ := Verif.Props.C09_counts (fun v : Option SVal => v.map fieldVal) vs gf lim
    obtain ⟨L', b1, ⟨b2, b3⟩, b4, b5⟩ := Verif.Props.C09_counts (fun v : Option SVal => v.map fieldVal) vs' gf lim
    rw [a1] at hl
    have e := Except.ok.inj hl
    have e : L = l := Ranked.pairs.inj e
    subst e
    refine ⟨text', L', t1, by unfold ranked; rw [t3, Option.map_some, m1]; exact congrArg (fun x => some (Except.ok x)) b1, ?_, b4, b5⟩
    rw [List.perm_ext_iff_of_nodup b2.of_map a2.of_map]
    rintro ⟨v, n⟩
    rw [a3, b3]
    unfold occurrences
    rw [(m2.map _).sum_nat]

theorem count_again (l : List Str) (a : Str) : (relisted l).count a = l.count a + if a = [] ∧ l = [] then 1 else 0 := by
  unfold relisted
  by_cases e : l = []
  · subst e
    by_cases ha : a = []
    · subst ha; simp
    · rw [if_pos rfl, if_neg (fun h => ha h.1), List.count_eq_zero.2 (by simpa using ha)]
      rfl
  · rw [if_neg e, if_neg (fun h => e h.2)]
    rfl

theorem sum_again (ps : List Paper) (items : Paper → List Str) (a : Str) :
    (ps.map (fun p => (items p).count a + if a = [] ∧ items p = [] then 1 else 0)).sum =
      (ps.map (fun p => (items p).count a)).sum + if a = [] then ps.countP (fun p => (items p).isEmpty) else 0 := by
  induction ps with
  | nil => simp
  | cons p ps ih =>
    rw [List.map_cons, List.sum_cons, ih, List.map_cons, List.sum_cons, List.countP_cons]
    by_cases ha : a = [] <;> by_cases hp : items p = [] <;> simp [ha, hp] <;> omega

/-- **C115, what the savings change.** The network of a column of lists made from a file that was saved, once or more: the edges of the one made from the file. The
nodes are those of the file as well, except that each paper with nothing in the column counts once for the node of the empty name, once however often it was saved. -/
theorem C115_terms (ho : ∀ rs, (order rs).Perm rs) (hf : FileOk papers) (hne : papers ≠ []) (hpl : ∀ p ∈ papers, Plain p)
    (orders : List (List Model.Scopus.Rec → List Model.Scopus.Rec)) (hos : Orders orders) (hon : orders ≠ [])
    (c sep k : String) (hc : (c, sep) ∈ listColumns) (hk : NameOf c k)
    (items : Paper → List Str) (hi : ∀ p ∈ papers, Lists sep (p c) (items p)) (nodeCount edgeWeight : Bool) :
    ∃ text g, resaved orders (fileText papers) = some text ∧ oneMode W before order k nodeCount edgeWeight text = some (.ok g) ∧
      (∀ a b, g.edge? a b = edgeFor edgeWeight (papers.map (fun p => pairsShared (items p) a b)).sum) ∧
      ∀ a n, n = (papers.map (fun p => (items p).count a)).sum + (if a = [] then papers.countP (fun p => (items p).isEmpty) else 0) →
        g.node? a = if n = 0 then none else some ⟨if nodeCount then some n else none, none⟩ := by
  obtain ⟨ps, h1, h2, h3⟩ := C115_saved hf hne hpl orders hos hon
  obtain ⟨of, hlist, hof⟩ := lists_of W.prims hc (papers' := ps) items (fun p hp => hi p (h1.mem_iff.1 hp))
  obtain ⟨g, g1, g2, g3⟩ := C109_terms (W := W) before ho h3 c sep k hc hk of hlist nodeCount edgeWeight
  have hsum : ∀ f : List Str → Nat, ((ps.map requote).map (fun q => f (of q))).sum = (papers.map (fun p => f (relisted (items p)))).sum := by
    intro f
    rw [List.map_map, ← (h1.map (fun p => f (relisted (items p)))).sum_nat]
    exact congrArg _ (List.map_congr_left (fun p hp => by show f (of (requote p)) = _; rw [hof p hp]))
  refine ⟨_, g, h2, g1, fun a b => ?_, fun a n hn => g3 a n ?_⟩
  · rw [g2, hsum (fun l => pairsShared l a b)]
    simp only [pairs_relisted]
  · rw [hn, hsum (fun l => l.count a), ← sum_again]
    simp only [count_again]

/-- **C115, co-authors.** The network of co-authors made from a file that was saved, once or more, has the edges of the one made from the file and its nodes, and a
node without a name if a paper had no authors. -/
theorem C115_coauthors (ho : ∀ rs, (order rs).Perm rs) (hf : FileOk papers) (hne : papers ≠ []) (hpl : ∀ p ∈ papers, Plain p)
    (orders : List (List Model.Scopus.Rec → List Model.Scopus.Rec)) (hos : Orders orders) (hon : orders ≠ [])
    (authors : Paper → List Str) (ha : ∀ p ∈ papers, Lists ", " (p "Authors") (authors p)) (useShort weighted count : Bool) :
    ∃ text g, resaved orders (fileText papers) = some text ∧ coAuthors W before order useShort weighted count text = some (.ok g) ∧
      (∀ a b, g.edge? a b = edgeFor weighted (papers.map (fun p => pairsShared (authors p) a b)).sum) ∧
      ∀ a, g.hasNode a = true ↔ ∃ p ∈ papers, a ∈ authors p ∨ a = [] ∧ authors p = [] := by
  obtain ⟨ps, h1, h2, h3⟩ := C115_saved hf hne hpl orders hos hon
  obtain ⟨of, hlist, hof⟩ := lists_of W.prims (c := "Authors") (sep := ", ") (by decide) (papers' := ps) authors (fun p hp => ha p (h1.mem_iff.1 hp))
  obtain ⟨g, g1, g2, g3⟩ := C109_coauthors (W := W) before ho h3 of hlist useShort weighted count
  refine ⟨_, g, h2, g1, fun a b => ?_, fun a => (g3 a).trans ?_⟩
  · rw [g2, List.map_map, ← (h1.map (fun p => pairsShared (authors p) a b)).sum_nat]
    refine congrArg _ (congrArg _ (List.map_congr_left (fun p hp => ?_)))
    show pairsShared (of (requote p)) a b = _
    rw [hof p hp, pairs_relisted]
  · have hmem : ∀ p ∈ ps, a ∈ of (requote p) ↔ a ∈ authors p ∨ a = [] ∧ authors p = [] := by
      intro p hp
      rw [hof p hp]
      unfold relisted
      by_cases e : authors p = []
      · simp [e]
      · simp [e]
    constructor
    · rintro ⟨q, hq, hm⟩
      obtain ⟨p, hp, rfl⟩ := List.mem_map.1 hq
      exact ⟨p, h1.mem_iff.1 hp, (hmem p hp).1 hm⟩
    · rintro ⟨p, hp, hm⟩
      have hp' := h1.mem_iff.2 hp
      exact ⟨_, List.mem_map_of_mem hp', (hmem p hp').2 hm⟩

end

private theorem orders_ok : Orders (ρ := Model.Scopus.Rec) [List.reverse, id, List.reverse] := by
  intro o ho rs
  simp only [List.mem_cons, List.not_mem_nil, or_false] at ho
  rcases ho with rfl | rfl | rfl
  · exact List.reverse_perm rs
  · exact .refl _
  · exact List.reverse_perm rs

private theorem once_ok : Orders (ρ := Model.Scopus.Rec) [id] := by
  intro o ho rs
  rw [List.mem_singleton.1 ho]
  exact .refl _

example := C115_saved file_ok (by decide) file_plain _ orders_ok (by simp)
example := C115_records (W := w) (order := List.reverse) (order' := id) (before := fun _ => []) (before' := fun _ => [.item "year"]) List.reverse_perm (fun _ => .refl _)
  file_ok (by decide) file_plain _ _ once_ok (by simp) orders_ok (by simp)

/-- Two papers of the file have keywords and one has none: saved three times, the node of the empty name counts one. -/
private theorem terms_saved : ∃ text g, resaved [List.reverse, id, List.reverse] (fileText file) = some text ∧
    oneMode w (fun _ => []) List.reverse "keywords" true true text = some (.ok g) ∧ g.node? [] = some ⟨some 1, none⟩ ∧
    g.node? "bees".toList = some ⟨some 2, none⟩ ∧ g.edge? "ants".toList "bees".toList = some (some 1) := by
  obtain ⟨text, g, h1, h2, h3, h4⟩ := C115_terms (W := w) (before := fun _ => []) List.reverse_perm file_ok (by decide) file_plain _ orders_ok (by simp)
    "Index Keywords" "; " "keywords" (by decide) (.inr (by decide)) _ keywords_ok true true
  exact ⟨text, g, h1, h2, h4 _ 1 (by decide +kernel), h4 _ 2 (by decide +kernel), (h3 _ _).trans (by decide +kernel)⟩

example : ∃ text g, resaved [id] (fileText file) = some text ∧ oneMode w (fun _ => [.item "year"]) id "keywords" true true text = some (.ok g) ∧
    g.node? [] = some ⟨some 1, none⟩ := by
  obtain ⟨text, g, h1, h2, h3, -⟩ := terms_saved
  obtain ⟨text', g', t1, t2, -, t4⟩ := C115_one_mode (before' := fun _ => [.item "year"]) (order' := id) List.reverse_perm (fun _ => .refl _) file_ok (by decide)
    file_plain _ _ orders_ok (by simp) once_ok (by simp) "keywords" true true text h1 g h2
  exact ⟨text', g', t1, t2, (t4 _).trans h3⟩

example : ∃ text g, resaved [List.reverse, id, List.reverse] (fileText file) = some text ∧ coAuthors w (fun _ => []) id true true true text = some (.ok g) ∧
    g.edge? "Ada A.".toList "Bob B.".toList = some (some 2) ∧ g.hasNode [] = true := by
  obtain ⟨text, g, h1, h2, h3, h4⟩ := C115_coauthors (W := w) (before := fun _ => []) (order := id) (fun _ => .refl _) file_ok (by decide) file_plain _ orders_ok
    (by simp) _ authors_ok true true true
  exact ⟨text, g, h1, h2, (h3 _ _).trans (by decide +kernel), (h4 _).2 (by decide +kernel)⟩

example : ∃ text l text' l', resaved [id] (fileText file) = some text ∧ ranked w (fun _ => []) List.reverse "keywords" true false true false none text = some (.ok (.ok (.pairs l))) ∧
    resaved [List.reverse, id, List.reverse] (fileText file) = some text' ∧
    ranked w (fun _ => [.item "year"]) id "keywords" true false true false none text' = some (.ok (.ok (.pairs l'))) ∧ l'.Perm l := by
  obtain ⟨ps, h1, h2, h3⟩ := C115_saved file_ok (by decide) file_plain _ once_ok (by simp)
  obtain ⟨of, hlist, -⟩ := lists_of w.prims (c := "Index Keywords") (sep := "; ") (by decide) (papers' := ps) _ (fun p hp => keywords_ok p (h1.mem_iff.1 hp))
  obtain ⟨l, l1, -⟩ := C109_ranked (W := w) (order := List.reverse) (fun _ => []) List.reverse_perm h3 "Index Keywords" "; " "keywords" (by decide)
    (.inr (by decide)) of hlist true
  obtain ⟨text', l', t1, t2, t3, -⟩ := C115_ranked (before' := fun _ => [.item "year"]) (order' := id) List.reverse_perm (fun _ => .refl _) file_ok (by decide)
    file_plain _ _ once_ok (by simp) orders_ok (by simp) "keywords" true none _ h2 _ l1
  exact ⟨_, _, text', l', h2, l1, t1, t2, t3⟩

end Verif.Props.ScopusSaved
