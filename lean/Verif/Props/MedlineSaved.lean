import Verif.Lemmas.MedlineSaved
import Verif.Props.MedlinePipeline
import Verif.Props.PipelineSaved

/-! # C114: a Medline file that was saved, any number of times, gives the same networks and tables; the addresses can double each time -/
set_option autoImplicit false
set_option linter.unusedSimpArgs false
namespace Verif.Props.MedlineSaved
open Verif.Py Verif.Model.MedlineFields Verif.Model.WosFields Verif.Model.RecordAccess Verif.Model.MedlinePipeline Verif.Spec.MedlinePipeline Verif.Spec
  Verif.Lemmas.MedlinePipeline Verif.Lemmas.MedlineSaved Verif.Props.MedlinePipeline
open Verif.Model.Series

section
variable {W : World} {order order' : List Model.Medline.Rec → List Model.Medline.Rec} {before before' : Model.Medline.Rec → List (Op String PVal)} {papers : List Paper}

theorem forall₂_map {α : Type} {R : α → α → Prop} {f : α → α} (h : ∀ a, R (f a) a) (l : List α) : List.Forall₂ R (l.map f) l := by
  induction l with
  | nil => exact .nil
  | cons a l ih => exact .cons (h a) ih

theorem rewritten_regroup (h : Setting W order) (hf : FileOk W.alpha papers) : ∃ qs : List Paper, qs.Perm papers ∧
    rewritten W order (fileText papers) = some (fileText (qs.map regroup)) := by
  obtain ⟨qs, h1, h2⟩ := ScopusPipeline.preimage (h.perm (papers.map toRec))
  refine ⟨qs, h1, ?_⟩
  unfold rewritten
  rw [records_eq W order h.classes hf, h2]
  have hne : qs ≠ [] := fun e => hf.some (by rw [e] at h1; exact h1.nil_eq.symm)
  show Model.Medline.writeFile (qs.map toRec) = _
  have hw : ∀ ps : List Paper, ∃ ts, (ps.map toRec).mapM Model.Medline.writeRecord = some ts ∧
      (ts.map (· ++ ['\n'])).flatten = (ps.map regroup).flatMap (fun p => p.flatMap entryText ++ "\n".toList) := by
    intro ps
    induction ps with
    | nil => exact ⟨[], rfl, rfl⟩
    | cons p ps ih =>
      obtain ⟨ts, t1, t2⟩ := ih
      refine ⟨Model.Medline.writeFields (fieldsOf p) :: ts, ?_, ?_⟩
      · rw [List.map_cons, List.mapM_cons, t1]; rfl
      · rw [List.map_cons, List.flatten_cons, t2, List.map_cons, List.flatMap_cons, written_text]
        rfl
  obtain ⟨ts, t1, t2⟩ := hw qs
  unfold Model.Medline.writeFile
  rw [if_neg (by simpa using hne), t1, Option.map_some, t2]
  rfl

/-- What `writeFile` writes for the collection made from a file: a file of papers with the same values under every tag that does not belong to an author. -/
theorem C114_rewritten_partial (h : Setting W order) (hf : FileOk W.alpha papers) (hpl : ∀ p ∈ papers, Plain p) :
    ∃ papers' qs : List Paper, qs.Perm papers ∧ List.Forall₂ SameValues papers' qs ∧ rewritten W order (fileText papers) = some (fileText papers') ∧
      FileOk W.alpha papers' ∧ ∀ p ∈ papers', Plain p := by
  obtain ⟨qs, h1, h2⟩ := rewritten_regroup h hf
  refine ⟨_, qs, h1, forall₂_map same_values qs, h2, regroup_file hf h1 hpl, ?_⟩
  intro q hq
  obtain ⟨p, hp, rfl⟩ := List.mem_map.1 hq
  exact regroup_plain (hpl p (h1.mem_iff.1 hp))

theorem same_trans {ps qs rs : List Paper} (h1 : List.Forall₂ SameValues ps qs) (h2 : List.Forall₂ SameValues qs rs) : List.Forall₂ SameValues ps rs := by
  induction h1 generalizing rs with
  | nil => exact h2
  | cons e _ ih =>
    cases h2 with
    | cons e' h2 => exact .cons (fun t ht => (e t ht).trans (e' t ht)) (ih h2)

/-- **C114, saved any number of times.** Reading a Medline file and writing it, any number of times and whatever the orders of the sets, succeeds, and gives a file of
papers with the same values under every tag that does not belong to an author. -/
theorem C114_saved_partial (hc : Spec.Medline.Classes W.ws W.alpha) (hf : FileOk W.alpha papers) (hpl : ∀ p ∈ papers, Plain p)
    (orders : List (List Model.Medline.Rec → List Model.Medline.Rec)) (ho : Pipeline.Orders orders) :
    ∃ papers' qs : List Paper, qs.Perm papers ∧ List.Forall₂ SameValues papers' qs ∧ resaved W orders (fileText papers) = some (fileText papers') ∧
      FileOk W.alpha papers' ∧ ∀ p ∈ papers', Plain p := by
  induction orders generalizing papers with
  | nil => exact ⟨papers, papers, .refl _, by simpa using forall₂_map (f := id) (fun p t _ => rfl) papers, rfl, hf, hpl⟩
  | cons o os ih =>
    obtain ⟨ps, qs, h1, h2, h3, h4, h5⟩ := C114_rewritten_partial (order := o) ⟨hc, ho o (by simp)⟩ hf hpl
    obtain ⟨ps', qs', i1, i2, i3, i4, i5⟩ := ih h4 h5 (fun q hq => ho q (by simp [hq]))
    obtain ⟨w, w1, w2⟩ := List.perm_comp_forall₂ i1 h2
    exact ⟨ps', w, w2.trans h1, same_trans i2 w1, by rw [resaved, h3, Option.bind_some, i3], i4, i5⟩

theorem sum_same {papers' qs : List Paper} (h1 : qs.Perm papers) (h2 : List.Forall₂ SameValues papers' qs) (tag : String) (ht : tag ∉ ["AD", "AUID"])
    (f : List Str → Nat) : (papers'.map (fun p => f (valuesOf p tag))).sum = (papers.map (fun p => f (valuesOf p tag))).sum := by
  rw [← (h1.map _).sum_nat]
  congr 1
  clear h1
  induction h2 with
  | nil => rfl
  | cons e _ ih => rw [List.map_cons, List.map_cons, ih, e tag ht]

theorem mem_same {papers' qs : List Paper} (h1 : qs.Perm papers) (h2 : List.Forall₂ SameValues papers' qs) (tag : String) (ht : tag ∉ ["AD", "AUID"])
    (P : List Str → Prop) : (∃ p ∈ papers', P (valuesOf p tag)) ↔ ∃ p ∈ papers, P (valuesOf p tag) := by
  have : (∃ p ∈ papers', P (valuesOf p tag)) ↔ ∃ p ∈ qs, P (valuesOf p tag) := by
    clear h1
    induction h2 with
    | nil => rfl
    | cons e _ ih => simp only [List.mem_cons, exists_eq_or_imp, ih, e tag ht]
  rw [this]
  exact exists_congr (fun p => and_congr_left (fun _ => h1.mem_iff))

theorem listed {tag : String} (h : ListTag tag) : tag ∉ ["AD", "AUID"] := fun hm => h (by simp at hm ⊢; tauto)

/-- **C114, co-authors.** The network of co-authors made from what was saved has the nodes and edges, with their weights, of the one made from the file. -/
theorem C114_coauthors (h : Setting W order) (ho' : ∀ rs, (order' rs).Perm rs) (hf : FileOk W.alpha papers) (hpl : ∀ p ∈ papers, Plain p)
    (orders : List (List Model.Medline.Rec → List Model.Medline.Rec)) (ho : Pipeline.Orders orders) (useShort weighted count : Bool) :
    ∃ text g g', resaved W orders (fileText papers) = some text ∧ coAuthors W before order useShort weighted count (fileText papers) = some (.ok g) ∧
      coAuthors W before' order' useShort weighted count text = some (.ok g') ∧
      (∀ a b, g'.edge? a b = g.edge? a b) ∧ ∀ a, g'.hasNode a = g.hasNode a := by
  obtain ⟨ps, qs, h1, h2, h3, h4, _⟩ := C114_saved_partial h.classes hf hpl orders ho
  obtain ⟨g, g1, g2, g3⟩ := C108_coauthors before h hf useShort weighted count
  obtain ⟨g', g1', g2', g3'⟩ := C108_coauthors before' (order := order') ⟨h.classes, ho'⟩ h4 useShort weighted count
  have ht : (if useShort then "AU" else "FAU") ∉ ["AD", "AUID"] := by cases useShort <;> decide
  refine ⟨_, g, g', h3, g1, g1', fun a b => ?_, fun a => ?_⟩
  · rw [g2, g2', sum_same h1 h2 _ ht (fun l => pairsShared l a b)]
  · rw [Bool.eq_iff_iff, g3, g3']
    exact mem_same h1 h2 _ ht (fun l => a ∈ l)

/-- **C114, terms.** The network of any tag of lists made from what was saved has the edges and nodes, with their counts, of the one made from the file. -/
theorem C114_terms (h : Setting W order) (ho' : ∀ rs, (order' rs).Perm rs) (hf : FileOk W.alpha papers) (hpl : ∀ p ∈ papers, Plain p)
    (orders : List (List Model.Medline.Rec → List Model.Medline.Rec)) (ho : Pipeline.Orders orders) (tag k : String) (hk : NameOf tag k) (ht : ListTag tag)
    (nodeCount edgeWeight : Bool) :
    ∃ text g g', resaved W orders (fileText papers) = some text ∧ oneMode W before order k nodeCount edgeWeight (fileText papers) = some (.ok g) ∧
      oneMode W before' order' k nodeCount edgeWeight text = some (.ok g') ∧
      (∀ a b, g'.edge? a b = g.edge? a b) ∧ ∀ a, g'.node? a = g.node? a := by
  obtain ⟨ps, qs, h1, h2, h3, h4, _⟩ := C114_saved_partial h.classes hf hpl orders ho
  obtain ⟨g, g1, g2, g3⟩ := C108_terms before h hf tag k hk ht nodeCount edgeWeight
  obtain ⟨g', g1', g2', g3'⟩ := C108_terms before' (order := order') ⟨h.classes, ho'⟩ h4 tag k hk ht nodeCount edgeWeight
  refine ⟨_, g, g', h3, g1, g1', fun a b => ?_, fun a => ?_⟩
  · rw [g2, g2', sum_same h1 h2 _ (listed ht) (fun l => pairsShared l a b)]
  · rw [g3 a _ rfl, g3' a _ rfl, sum_same h1 h2 _ (listed ht) (fun l => l.count a)]

theorem perm_tables {α : Type} {l l' : List (α × Nat)} (hn : (l.map Prod.fst).Nodup) (hn' : (l'.map Prod.fst).Nodup) (h : ∀ a n, (a, n) ∈ l' ↔ (a, n) ∈ l) :
    l'.Perm l := (List.perm_ext_iff_of_nodup hn'.of_map hn.of_map).2 (fun e => h e.1 e.2)

/-- **C114, values ranked.** `rankedSeries` of any tag of lists made from what was saved has the entries, with their counts, of the one made from the file. -/
theorem C114_ranked (h : Setting W order) (ho' : ∀ rs, (order' rs).Perm rs) (hf : FileOk W.alpha papers) (hpl : ∀ p ∈ papers, Plain p)
    (orders : List (List Model.Medline.Rec → List Model.Medline.Rec)) (ho : Pipeline.Orders orders) (tag k : String) (hk : NameOf tag k) (ht : ListTag tag) (gf : Bool) :
    ∃ text, ∃ l l' : List (Str × Nat), resaved W orders (fileText papers) = some text ∧
      ranked W before order k true false gf false none (fileText papers) = some (.ok (.ok (.pairs (l.map (fun e => (PVal.field (.text e.1), e.2)))))) ∧
      ranked W before' order' k true false gf false none text = some (.ok (.ok (.pairs (l'.map (fun e => (PVal.field (.text e.1), e.2)))))) ∧ l'.Perm l ∧
      (gf = true → l'.Pairwise (fun a b => b.2 ≤ a.2)) ∧ (gf = false → l'.Pairwise (fun a b => a.2 ≤ b.2)) := by
  obtain ⟨ps, qs, h1, h2, h3, h4, _⟩ := C114_saved_partial h.classes hf hpl orders ho
  obtain ⟨l, a1, a2, a3, _⟩ := C108_ranked before h hf tag k hk ht gf
  obtain ⟨l', b1, b2, b3, b4, b5⟩ := C108_ranked before' (order := order') ⟨h.classes, ho'⟩ h4 tag k hk ht gf
  refine ⟨_, l, l', h3, a1, b1, perm_tables a2 b2 (fun a n => ?_), b4, b5⟩
  rw [a3, b3, sum_same h1 h2 _ (listed ht) (fun l => l.count a)]

/-- **C114, years ranked.** `rankedSeries('year')` made from what was saved has the years, with the numbers of papers, of the one made from the file. -/
theorem C114_years (h : Setting W order) (ho' : ∀ rs, (order' rs).Perm rs) (hf : FileOk W.alpha papers) (hpl : ∀ p ∈ papers, Plain p)
    (orders : List (List Model.Medline.Rec → List Model.Medline.Rec)) (ho : Pipeline.Orders orders) (hint : ∀ n : Nat, W.prims.int (showNat n) = some (n : Int))
    (hy : ∀ p ∈ papers, valuesOf p "DP" = [] ∨ ∃ y, OfYear p y) (gf : Bool) :
    ∃ text, ∃ l l' : List (Nat × Nat), resaved W orders (fileText papers) = some text ∧
      ranked W before order "year" true false gf false none (fileText papers) = some (.ok (.ok (.pairs (l.map (fun e => (PVal.made (.num e.1), e.2)))))) ∧
      ranked W before' order' "year" true false gf false none text = some (.ok (.ok (.pairs (l'.map (fun e => (PVal.made (.num e.1), e.2)))))) ∧ l'.Perm l ∧
      (gf = true → l'.Pairwise (fun a b => b.2 ≤ a.2)) ∧ (gf = false → l'.Pairwise (fun a b => a.2 ≤ b.2)) := by
  classical
  obtain ⟨ps, qs, h1, h2, h3, h4, _⟩ := C114_saved_partial h.classes hf hpl orders ho
  let yearOf : List Str → Option Nat := fun vs =>
    if hex : ∃ y : Nat, ∃ tail, vs.head? = some (showNat y ++ tail) ∧ (tail = [] ∨ ∃ t, tail = ' ' :: t) then some hex.choose else none
  have hyear : ∀ p : Paper, (valuesOf p "DP" = [] ∨ ∃ y, OfYear p y) →
      (yearOf (valuesOf p "DP") = none ∧ valuesOf p "DP" = []) ∨ ∃ y, yearOf (valuesOf p "DP") = some y ∧ OfYear p y := by
    intro p hp
    rcases hp with hp | hp
    · left
      refine ⟨?_, hp⟩
      show (dite _ _ _) = none
      rw [dif_neg]
      rintro ⟨y, tail, e, _⟩
      rw [hp] at e
      cases e
    · right
      have hex : ∃ y : Nat, ∃ tail, (valuesOf p "DP").head? = some (showNat y ++ tail) ∧ (tail = [] ∨ ∃ t, tail = ' ' :: t) := hp
      exact ⟨hex.choose, dif_pos hex, hex.choose_spec⟩
  have hy' : ∀ p ∈ ps, valuesOf p "DP" = [] ∨ ∃ y, OfYear p y := by
    intro p hp
    have hall : ¬ ∃ q ∈ papers, ¬ (valuesOf q "DP" = [] ∨ ∃ y : Nat, ∃ tail, (valuesOf q "DP").head? = some (showNat y ++ tail) ∧ (tail = [] ∨ ∃ t, tail = ' ' :: t)) := by
      rintro ⟨q, hq, hn⟩
      exact hn (hy q hq)
    rw [← mem_same h1 h2 "DP" (by decide) (fun l => ¬ (l = [] ∨ ∃ y : Nat, ∃ tail, l.head? = some (showNat y ++ tail) ∧ (tail = [] ∨ ∃ t, tail = ' ' :: t)))] at hall
    by_contra hn
    exact hall ⟨p, hp, hn⟩
  obtain ⟨l, a1, a2, a3, _⟩ := C108_years before h hf hint (fun p => yearOf (valuesOf p "DP")) (fun p hp => hyear p (hy p hp)) gf
  obtain ⟨l', b1, b2, b3, b4, b5⟩ := C108_years before' (order := order') ⟨h.classes, ho'⟩ h4 hint (fun p => yearOf (valuesOf p "DP")) (fun p hp => hyear p (hy' p hp)) gf
  refine ⟨_, l, l', h3, a1, b1, perm_tables a2 b2 (fun y n => ?_), b4, b5⟩
  rw [a3, b3, ← Pipeline.sum_ite, ← Pipeline.sum_ite, sum_same h1 h2 "DP" (by decide) (fun l => if yearOf l = some y then 1 else 0)]

/-! ## Addresses -/

theorem fold_addresses (a c : Str) (m : Nat) (d0 : Model.Medline.Fields) (h0 : Dict.get? d0 "AD".toList = none) (vs : List Str) (t : Str) :
    ∃ t', (List.replicate m ("AD".toList, c)).foldl Lemmas.Medline.stepItem ⟨d0 ++ [("AD".toList, vs)], t, some a⟩ =
      ⟨d0 ++ [("AD".toList, vs ++ List.replicate m (a ++ " : ".toList ++ c))], t', some a⟩ := by
  have hset : ∀ (d : Model.Medline.Fields) (vs ws : List Str), Dict.get? d "AD".toList = none →
      Dict.set (d ++ [("AD".toList, vs)]) "AD".toList ws = d ++ [("AD".toList, ws)] := by
    intro d vs ws h
    induction d with
    | nil => simp [Dict.set]
    | cons f d ih =>
      obtain ⟨k, x⟩ := f
      rw [Dict.get?] at h
      by_cases hk : k = "AD".toList
      · rw [if_pos hk] at h; cases h
      · rw [if_neg hk] at h
        rw [List.cons_append, Dict.set, if_neg hk, ih h, List.cons_append]
  have hget : ∀ (d : Model.Medline.Fields) (vs : List Str), Dict.get? d "AD".toList = none → Dict.get? (d ++ [("AD".toList, vs)]) "AD".toList = some vs := by
    intro d vs h
    induction d with
    | nil => simp [Dict.get?]
    | cons f d ih =>
      obtain ⟨k, x⟩ := f
      rw [Dict.get?] at h
      by_cases hk : k = "AD".toList
      · rw [if_pos hk] at h; cases h
      · rw [if_neg hk] at h
        rw [List.cons_append, Dict.get?, if_neg hk, ih h]
  induction m generalizing vs t with
  | zero => exact ⟨t, by simp⟩
  | succ m ih =>
    obtain ⟨t', e⟩ := ih (vs ++ [a ++ " : ".toList ++ c]) "AD".toList
    refine ⟨t', ?_⟩
    rw [List.replicate_succ, List.foldl_cons]
    have : Lemmas.Medline.stepItem ⟨d0 ++ [("AD".toList, vs)], t, some a⟩ ("AD".toList, c) =
        ⟨d0 ++ [("AD".toList, vs ++ [a ++ " : ".toList ++ c])], "AD".toList, some a⟩ := by
      unfold Lemmas.Medline.stepItem Model.Medline.push
      dsimp only
      rw [if_pos (by decide), hget d0 vs h0, hset d0 vs _ h0, if_neg (by decide)]
      rfl
    rw [this, e, List.replicate_succ, List.append_assoc]
    rfl

theorem fields_twice (v a c : Str) (ha : '\n' ∉ a) (m : Nat) : fieldsOf (twice v a c (m + 1)) =
    [("PMID".toList, [v]), ("AU".toList, [a, a]), ("AD".toList, List.replicate (m + 1 + (m + 1)) (a ++ " : ".toList ++ c))] := by
  have hi : items (twice v a c (m + 1)) = ("PMID".toList, v) :: ("AU".toList, a) :: ("AD".toList, c) :: (List.replicate m ("AD".toList, c) ++
      ("AU".toList, a) :: List.replicate (m + 1) ("AD".toList, c)) := by
    unfold items twice
    simp [List.replicate_succ, List.intercalate, List.map_replicate]
  unfold fieldsOf
  rw [hi, List.foldl_cons, List.foldl_cons, List.foldl_cons, List.foldl_append]
  have h3 : Lemmas.Medline.stepItem (Lemmas.Medline.stepItem (Lemmas.Medline.stepItem ⟨[], Model.Medline.pmid, none⟩ ("PMID".toList, v)) ("AU".toList, a)) ("AD".toList, c) =
      ⟨[("PMID".toList, [v]), ("AU".toList, [a])] ++ [("AD".toList, [a ++ " : ".toList ++ c])], "AD".toList, some a⟩ := by
    unfold Lemmas.Medline.stepItem
    simp [Model.Medline.push, Dict.set, Dict.get?, Model.Medline.auTag, Model.Medline.authorBasedTags, Lemmas.Medline.firstLine_id a ha, Model.Medline.showAuthor]
  obtain ⟨t1, e1⟩ := fold_addresses a c m [("PMID".toList, [v]), ("AU".toList, [a])] (by simp [Dict.get?]) [a ++ " : ".toList ++ c] "AD".toList
  rw [h3, e1, List.foldl_cons]
  have h4 : Lemmas.Medline.stepItem ⟨[("PMID".toList, [v]), ("AU".toList, [a])] ++ [("AD".toList, [a ++ " : ".toList ++ c] ++ List.replicate m (a ++ " : ".toList ++ c))], t1,
      some a⟩ ("AU".toList, a) = ⟨[("PMID".toList, [v]), ("AU".toList, [a, a])] ++ [("AD".toList, [a ++ " : ".toList ++ c] ++ List.replicate m (a ++ " : ".toList ++ c))],
      "AU".toList, some a⟩ := by
    unfold Lemmas.Medline.stepItem
    simp [Model.Medline.push, Dict.set, Dict.get?, Model.Medline.auTag, Model.Medline.authorBasedTags, Lemmas.Medline.firstLine_id a ha]
  obtain ⟨t2, e2⟩ := fold_addresses a c (m + 1) [("PMID".toList, [v]), ("AU".toList, [a, a])] (by simp [Dict.get?])
    ([a ++ " : ".toList ++ c] ++ List.replicate m (a ++ " : ".toList ++ c)) "AU".toList
  rw [h4, e2]
  show _ ++ [("AD".toList, _)] = _
  rw [List.singleton_append, ← List.replicate_succ, ← List.replicate_add]
  rfl

theorem regroup_twice (v a c : Str) (hv : '\n' ∉ v) (ha : Spec.Medline.NameOk a) (hc : '\n' ∉ c) (m : Nat) :
    regroup (twice v a c (m + 1)) = twice v a c (m + 1 + (m + 1)) := by
  have hs : ∀ s : Str, '\n' ∉ s → Str.split ['\n'] s = [s] := fun s h => Str.split_none ['\n'] s (by rwa [List.singleton_infix_iff])
  have hown : ∀ n, Lemmas.MedlineSaved.own [("PMID".toList, [v]), ("AU".toList, [a, a]), ("AD".toList, List.replicate n (a ++ " : ".toList ++ c))] "AD".toList a =
      List.replicate n c := by
    intro n
    unfold Lemmas.MedlineSaved.own Lemmas.Medline.vals
    simp only [Dict.get?]
    rw [if_neg (by decide), if_neg (by decide), if_pos trivial, Option.getD_some, List.filter_replicate, if_pos (by simpa using Lemmas.Medline.name_attached a c ha),
      List.map_replicate, Lemmas.Medline.content_attached a c ha]
  have hown' : ∀ n, Lemmas.MedlineSaved.own [("PMID".toList, [v]), ("AU".toList, [a, a]), ("AD".toList, List.replicate n (a ++ " : ".toList ++ c))] "AUID".toList a = [] := by
    intro n
    unfold Lemmas.MedlineSaved.own Lemmas.Medline.vals
    simp only [Dict.get?]
    rw [if_neg (by decide), if_neg (by decide), if_neg (by decide)]
    rfl
  unfold regroup
  rw [fields_twice v a c ha.1]
  generalize m + 1 + (m + 1) = n
  have hitems : Lemmas.Medline.ownItems (Lemmas.MedlineSaved.own [("PMID".toList, [v]), ("AU".toList, [a, a]), ("AD".toList, List.replicate n (a ++ " : ".toList ++ c))]) a =
      List.replicate n ("AD".toList, c) := by
    unfold Lemmas.Medline.ownItems Model.Medline.authorBasedTags
    rw [List.flatMap_cons, List.flatMap_cons, hown, hown', List.map_replicate]
    simp
  rw [List.flatMap_cons, List.flatMap_cons, List.flatMap_cons, List.flatMap_nil]
  unfold Lemmas.Medline.fieldItems
  dsimp only
  rw [if_neg (by decide), if_neg (by decide), if_pos (by decide)]
  rw [List.flatMap_cons, List.flatMap_cons, List.flatMap_cons, List.flatMap_nil, List.flatMap_nil, if_neg (by decide), if_pos (by decide), hitems]
  simp [twice, hs v hv, hs a ha.1, hs c hc, List.map_replicate]

/-- **C114, disagreement.** When a paper lists an author twice, each saving doubles the addresses of the author: after saving the file `n` times there are `2 ^ n` for each one. -/
theorem C114_addresses_double (hc : Spec.Medline.Classes W.ws W.alpha) (number author address : Str) (ha : Spec.Medline.NameOk author)
    (hf : FileOk W.alpha [twice number author address 1]) (hpl : Plain (twice number author address 1))
    (orders : List (List Model.Medline.Rec → List Model.Medline.Rec)) (ho : Pipeline.Orders orders) :
    resaved W orders (fileText [twice number author address 1]) = some (fileText [twice number author address (2 ^ orders.length)]) := by
  have hok := hf.each _ (List.mem_singleton.2 rfl)
  have hv : '\n' ∉ number := ((hok.lines ("PMID".toList, [number]) (by simp [twice])).2 number (by simp)).1
  have hc' : '\n' ∉ address := ((hok.lines ("AD".toList, [address]) (by simp [twice])).2 address (by simp)).1
  have key : ∀ (orders : List (List Model.Medline.Rec → List Model.Medline.Rec)) (m : Nat), Pipeline.Orders orders →
      FileOk W.alpha [twice number author address (m + 1)] → Plain (twice number author address (m + 1)) →
      resaved W orders (fileText [twice number author address (m + 1)]) = some (fileText [twice number author address ((m + 1) * 2 ^ orders.length)]) := by
    intro orders
    induction orders with
    | nil => intro m _ _ _; simp [resaved]
    | cons o os ih =>
      intro m ho hf hpl
      obtain ⟨qs, h1, h2⟩ := rewritten_regroup (order := o) ⟨hc, ho o (by simp)⟩ hf
      obtain rfl : qs = [_] := List.perm_singleton.1 h1
      have hf' := regroup_file hf h1 (by intro p hp; rw [List.mem_singleton] at hp; rw [hp]; exact hpl)
      have hpl' := regroup_plain hpl
      rw [List.map_singleton, regroup_twice number author address hv ha hc'] at h2 hf'
      rw [regroup_twice number author address hv ha hc'] at hpl'
      have := ih (m + 1 + m) (fun q hq => ho q (by simp [hq])) hf' hpl'
      rw [resaved, h2, Option.bind_some, List.length_cons]
      refine this.trans ?_
      rw [Nat.pow_succ]
      have e : (m + 1 + m + 1) * 2 ^ os.length = (m + 1) * (2 ^ os.length * 2) := by
        rw [← Nat.mul_assoc, Nat.mul_right_comm]
        congr 1
        omega
      rw [e]
  have := key orders 0 ho hf hpl
  rwa [Nat.zero_add, Nat.one_mul] at this

end

/-! ## A file -/

private theorem orders_ok : Pipeline.Orders (ρ := Model.Medline.Rec) [List.reverse, id] := by
  intro o ho rs
  simp only [List.mem_cons, List.not_mem_nil, or_false] at ho
  rcases ho with rfl | rfl
  · exact List.reverse_perm rs
  · exact .refl _

private theorem file_plain : ∀ p ∈ file, Plain p := by
  have : ∀ p ∈ file, ∀ e ∈ p, ∀ l ∈ e.2, Str.contains "VR 1.0".toList l = false := by decide +kernel
  intro p hp e he l hl hi
  have h1 := this p hp e he l hl
  rw [(Str.contains_iff _ _).2 hi] at h1
  cases h1

example := C114_rewritten_partial setting file_ok file_plain
example := C114_saved_partial setting.classes file_ok file_plain _ orders_ok
example := C114_coauthors (before := fun _ => []) (before' := fun _ => [.item "AU"]) (order' := id) setting (fun _ => .refl _) file_ok file_plain _ orders_ok true true true
example := C114_ranked (before := fun _ => []) (before' := fun _ => [.item "AU"]) (order' := id) setting (fun _ => .refl _) file_ok file_plain _ orders_ok
  "MH" "MeSHTerms" terms (by unfold ListTag; decide) true

example : ∃ text g', resaved w [List.reverse, id] (fileText file) = some text ∧
    oneMode w (fun _ => [.item "MH"]) id "MeSHTerms" true true text = some (.ok g') ∧
    g'.edge? "Humans".toList "Mice".toList = some (some 1) ∧ g'.node? "Mice".toList = some ⟨some 2, none⟩ := by
  obtain ⟨text, g, g', t1, t2, t3, t4, t5⟩ := C114_terms (before := fun _ => [.item "MH"]) (before' := fun _ => [.item "MH"]) (order' := id) setting (fun _ => .refl _)
    file_ok file_plain _ orders_ok "MH" "MeSHTerms" terms (by unfold ListTag; decide) true true
  obtain ⟨g2, h1, h2, h3⟩ := C108_terms (fun _ => [.item "MH"]) setting file_ok "MH" "MeSHTerms" terms (by unfold ListTag; decide) true true
  rw [h1] at t2
  obtain rfl := Except.ok.inj (Option.some.inj t2)
  exact ⟨text, g', t1, t3, (t4 _ _).trans ((h2 _ _).trans (by decide +kernel)), (t5 _).trans (h3 _ 2 (by decide +kernel))⟩

example := C114_years (before := fun _ => []) (before' := fun _ => [.item "year"]) (order' := id) setting (fun _ => .refl _) file_ok file_plain _ orders_ok int_show (by
    intro p hp
    simp only [file, List.mem_cons, List.not_mem_nil, or_false] at hp
    rcases hp with rfl | rfl | rfl
    · exact .inr ⟨2001, " Mar-Apr".toList, by decide +kernel, .inr ⟨_, rfl⟩⟩
    · exact .inr ⟨2001, [], by decide +kernel, .inl rfl⟩
    · exact .inl (by decide +kernel)) true

example : resaved w [List.reverse, id, List.reverse] (fileText [twice "1".toList "Ada A".toList "Here".toList 1]) =
    some (fileText [twice "1".toList "Ada A".toList "Here".toList 8]) :=
  C114_addresses_double (W := w) setting.classes _ _ _ ⟨by decide, by rw [← Str.contains_iff]; decide⟩
    { some := by decide
      each := by
        intro p hp
        rw [List.mem_singleton] at hp
        subst hp
        exact {
          first := ⟨_, _, rfl⟩
          tags := by
            have : ∀ e ∈ twice "1".toList "Ada A".toList "Here".toList 1, (e.1 ≠ [] ∧ e.1.length ≤ 4 ∧ (∀ c ∈ e.1, w.alpha c = true)) ∧ '\n' ∉ e.1 ∧ '\r' ∉ e.1 := by
              decide +kernel
            exact fun e he => ⟨⟨(this e he).1.1, (this e he).1.2.1, (this e he).1.2.2⟩, (this e he).2⟩
          reserved := by decide +kernel
          lines := by decide +kernel }
      different := by decide +kernel
      notWos := by
        have : ∀ p ∈ [twice "1".toList "Ada A".toList "Here".toList 1], ∀ e ∈ p, Str.contains "VR 1.0".toList (entryText e) = false := by decide +kernel
        intro p hp e he hi
        have h1 := this p (List.mem_of_mem_head? hp) e he
        rw [(Str.contains_iff _ _).2 hi] at h1
        cases h1 }
    (by
      have : ∀ e ∈ twice "1".toList "Ada A".toList "Here".toList 1, ∀ l ∈ e.2, Str.contains "VR 1.0".toList l = false := by decide +kernel
      intro e he l hl hi
      have h1 := this e he l hl
      rw [(Str.contains_iff _ _).2 hi] at h1
      cases h1)
    [List.reverse, id, List.reverse] (by
      intro o ho rs
      simp only [List.mem_cons, List.not_mem_nil, or_false] at ho
      rcases ho with rfl | rfl | rfl
      · exact List.reverse_perm rs
      · exact .refl _
      · exact List.reverse_perm rs)

end Verif.Props.MedlineSaved
