import Verif.Lemmas.Pipeline
import Verif.Props.CoNetworks
import Verif.Props.Networks
import Verif.Props.Series
import Verif.Props.CiteNetworks
import Verif.Props.CiteParse

/-! # C104: from a Web of Science file to networks and tables -/
set_option autoImplicit false
set_option linter.unusedSimpArgs false
namespace Verif.Props.Pipeline
open Verif.Py Verif.Model.WosFields Verif.Model.RecordAccess Verif.Model.Pipeline Verif.Spec.Pipeline Verif.Spec Verif.Lemmas.Pipeline
open Verif.Model.Series

/-- What is assumed about Python: of white space only that the line end is some and `E` is none; and a set is gone through in some order. -/
structure Setting (W : World) (order : List Model.Wos.Rec → List Model.Wos.Rec) : Prop where
  nl : W.ws '\n' = true
  E : W.ws 'E' = false
  perm : ∀ rs, (order rs).Perm rs

section
variable {W : World} {order : List Model.Wos.Rec → List Model.Wos.Rec} (before : Model.Wos.Rec → List (Op String FVal)) {origin : Str} {papers : List Paper}

theorem sum_order (h : Setting W order) (f : Model.Wos.Rec → Nat) : ((order (papers.map toRec)).map f).sum = (papers.map (fun p => f (toRec p))).sum := by
  rw [((h.perm (papers.map toRec)).map f).sum_nat, List.map_map]; rfl

theorem of_order (h : Setting W order) (hf : FileOk W.ws origin papers) {r : Model.Wos.Rec} (hr : r ∈ order (papers.map toRec)) :
    PaperOk W.ws r.fields ∧ r = toRec r.fields ∧ r.fields ∈ papers := by
  obtain ⟨p, hp, rfl⟩ := List.mem_map.1 ((h.perm _).mem_iff.1 hr)
  exact ⟨hf.each p hp, rfl, hp⟩

theorem exists_pos {α : Type} {f : α → Nat} {l : List α} (h : 0 < (l.map f).sum) : ∃ a ∈ l, 0 < f a := by
  induction l with
  | nil => simp at h
  | cons a l ih =>
    by_cases h0 : 0 < f a
    · exact ⟨a, by simp, h0⟩
    · obtain ⟨b, hb, h1⟩ := ih (by simp only [List.map_cons, List.sum_cons] at h; omega)
      exact ⟨b, List.mem_cons_of_mem _ hb, h1⟩

theorem sum_ite {α : Type} (q : α → Prop) [DecidablePred q] (l : List α) : (l.map (fun a => if q a then 1 else 0)).sum = l.countP (fun a => decide (q a)) := by
  induction l with
  | nil => rfl
  | cons a l ih => rw [List.map_cons, List.sum_cons, ih, List.countP_cons, Nat.add_comm]; simp

theorem pairs_nodup {ν : Type} [DecidableEq ν] {l : List ν} (hn : l.Nodup) {a b : ν} (hab : a ≠ b) :
    pairsShared l a b = if a ∈ l ∧ b ∈ l then 1 else 0 := by
  unfold pairsShared
  rw [if_neg hab, hn.count, hn.count]
  by_cases ha : a ∈ l <;> by_cases hb : b ∈ l <;> simp [ha, hb]

theorem pairs_map {ν μ : Type} [DecidableEq ν] [DecidableEq μ] {f : ν → μ} (hf : ∀ x y, f x = f y → x = y) (l : List ν) (a b : ν) :
    pairsShared (l.map f) (f a) (f b) = pairsShared l a b := by
  unfold pairsShared
  have hc : ∀ x, (l.map f).count (f x) = l.count x := fun x => List.count_map_of_injective _ _ (fun x y e => hf x y e) x
  rw [hc, hc]
  by_cases e : a = b
  · rw [if_pos e, if_pos (by rw [e])]
  · rw [if_neg e, if_neg (fun e' => e (hf _ _ e'))]

/-- A table whose entries all are `f` of something. -/
theorem retype {α β : Type} {f : α → β} (hf : ∀ a b, f a = f b → a = b) (L : List (β × Nat)) (hn : (L.map Prod.fst).Nodup)
    (hL : ∀ v n, (v, n) ∈ L → ∃ a, v = f a) : ∃ l : List (α × Nat), L = l.map (fun e => (f e.1, e.2)) ∧ (l.map Prod.fst).Nodup ∧
      (∀ a n, (f a, n) ∈ L ↔ (a, n) ∈ l) ∧ (L.Pairwise (fun a b => b.2 ≤ a.2) → l.Pairwise (fun a b => b.2 ≤ a.2)) ∧
      (L.Pairwise (fun a b => a.2 ≤ b.2) → l.Pairwise (fun a b => a.2 ≤ b.2)) := by
  have hex : ∃ l : List (α × Nat), L = l.map (fun e => (f e.1, e.2)) := by
    clear hn
    induction L with
    | nil => exact ⟨[], rfl⟩
    | cons e L ih =>
      obtain ⟨v, n⟩ := e
      obtain ⟨a, rfl⟩ := hL v n (by simp)
      obtain ⟨l, rfl⟩ := ih (fun v n h => hL v n (List.mem_cons_of_mem _ h))
      exact ⟨(a, n) :: l, rfl⟩
  obtain ⟨l, rfl⟩ := hex
  refine ⟨l, rfl, ?_, ?_, ?_, ?_⟩
  · rw [List.map_map] at hn
    have : (l.map Prod.fst).map f = l.map (Prod.fst ∘ fun e => (f e.1, e.2)) := by rw [List.map_map]; rfl
    rw [← this] at hn
    exact hn.of_map
  · intro a n
    constructor
    · intro hm
      obtain ⟨e, he, h⟩ := List.mem_map.1 hm
      obtain ⟨a', n'⟩ := e
      simp only [Prod.mk.injEq] at h
      obtain ⟨h1, rfl⟩ := h
      rw [← hf _ _ h1]; exact he
    · intro hm
      exact List.mem_map.2 ⟨_, hm, rfl⟩
  · intro hp; rw [List.pairwise_map] at hp; exact hp
  · intro hp; rw [List.pairwise_map] at hp; exact hp

/-- The collection holds one record for each paper. Under the tag of a field and under its long name the record gives what the field says, and nothing
when the paper has no such field, whatever was read of it before. -/
theorem C104_reading (h : Setting W order) (hf : FileOk W.ws origin papers) : ∃ rs, records W order (fileText origin papers) = some rs ∧
    (rs.map Model.Wos.Rec.fields).Perm papers ∧ ∀ r ∈ rs, ∀ tag long k : String, TagTable.Wos tag.toList long.toList → k = tag ∨ k = long →
      (linesOf r.fields tag = [] → value W before k r = .ok none) ∧
      (linesOf r.fields tag ≠ [] → ∀ v, wosValue W.prims tag.toList (linesOf r.fields tag) = .ok v → value W before k r = .ok (some v)) := by
  refine ⟨_, records_eq W order h.nl h.E hf, ?_, ?_⟩
  · have := (h.perm (papers.map toRec)).map Model.Wos.Rec.fields
    rwa [List.map_map, show Model.Wos.Rec.fields ∘ toRec = id from rfl, List.map_id] at this
  · intro r hr tag long k hw hk
    obtain ⟨h1, h2, _⟩ := of_order h hf hr
    have := value_eq W before h1 tag long k hw hk
    rw [← h2] at this
    rw [this]
    refine ⟨fun hl => if_pos hl, fun hl v hv => ?_⟩
    rw [if_neg hl, hv]; rfl

/-- The tag of the names used. -/
def nameTag (useShort : Bool) : String := if useShort then "AU" else "AF"

theorem authors_value (h : Setting W order) (hf : FileOk W.ws origin papers) (useShort : Bool) :
    (order (papers.map toRec)).mapM (fun r => do Model.Pipeline.names (← value W before (if useShort then "authorsShort" else "authorsFull") r)) =
      .ok ((order (papers.map toRec)).map (fun r => linesOf r.fields (nameTag useShort))) := by
  apply Lemmas.Pipeline.mapM_ok
  intro r hr
  obtain ⟨h1, h2, _⟩ := of_order h hf hr
  have hv : value W before (if useShort then "authorsShort" else "authorsFull") r =
      if linesOf r.fields (nameTag useShort) = [] then .ok none else .ok (some (.texts (linesOf r.fields (nameTag useShort)))) := by
    rw [h2]
    cases useShort
    · have := value_eq W before h1 "AF" "authorsFull" "authorsFull" (by unfold TagTable.Wos; decide +kernel) (.inr rfl)
      rw [(WosFields.C69_lines W.prims "AF".toList (by decide) _).1] at this
      exact this
    · have := value_eq W before h1 "AU" "authorsShort" "authorsShort" (by unfold TagTable.Wos; decide +kernel) (.inr rfl)
      rw [(WosFields.C69_lines W.prims "AU".toList (by decide) _).1] at this
      exact this
  rw [hv]
  by_cases hl : linesOf r.fields (nameTag useShort) = []
  · rw [if_pos hl, hl]; rfl
  · rw [if_neg hl]; rfl

/-- **C104, co-authors.** The network of co-authors made from a file: two names are joined as often as a paper lists both, over the papers, and the nodes
are the names listed. -/
theorem C104_coauthors (h : Setting W order) (hf : FileOk W.ws origin papers) (useShort weighted count : Bool) :
    ∃ g, coAuthors W before order useShort weighted count (fileText origin papers) = some (.ok g) ∧
      (∀ a b, g.edge? a b = edgeFor weighted (papers.map (fun p => pairsShared (linesOf p (if useShort then "AU" else "AF")) a b)).sum) ∧
      ∀ a, g.hasNode a = true ↔ ∃ p ∈ papers, a ∈ linesOf p (if useShort then "AU" else "AF") := by
  unfold coAuthors
  rw [records_eq W order h.nl h.E hf]
  simp only [Option.map_some]
  rw [authors_value before h hf useShort]
  have hc := Verif.Props.C15_edges_nodes weighted false count (fun _ => true) id (fun _ => ())
      ((order (papers.map toRec)).map (fun r => linesOf r.fields (nameTag useShort)))
  have hk : keptRecs false (fun _ => true) ((order (papers.map toRec)).map (fun r => linesOf r.fields (nameTag useShort))) =
      (order (papers.map toRec)).map (fun r => linesOf r.fields (nameTag useShort)) := by
    unfold keptRecs; simp
  rw [hk] at hc
  refine ⟨_, rfl, ?_, ?_⟩
  · intro a b
    refine (hc.2.2.1 a b).trans ?_
    rw [List.map_map]
    exact congrArg _ (sum_order h (fun r => pairsShared (linesOf r.fields (nameTag useShort)) a b))
  · intro a
    refine (hc.2.2.2 a).trans ?_
    constructor
    · rintro ⟨l, hl, ha⟩
      obtain ⟨r, hr, rfl⟩ := List.mem_map.1 hl
      exact ⟨r.fields, (of_order h hf hr).2.2, ha⟩
    · rintro ⟨p, hp, ha⟩
      exact ⟨_, List.mem_map_of_mem ((h.perm _).mem_iff.2 (List.mem_map_of_mem hp)), ha⟩

/-- The same in words: when no paper lists a name twice, the weight between two different names is the number of papers that list both. -/
theorem C104_coauthors_papers (h : Setting W order) (hf : FileOk W.ws origin papers) (useShort count : Bool)
    (hn : ∀ p ∈ papers, (linesOf p (if useShort then "AU" else "AF")).Nodup) :
    ∃ g, coAuthors W before order useShort true count (fileText origin papers) = some (.ok g) ∧ ∀ a b, a ≠ b → ∀ n : Nat,
      n = papers.countP (fun p => decide (a ∈ linesOf p (if useShort then "AU" else "AF") ∧ b ∈ linesOf p (if useShort then "AU" else "AF"))) →
      g.edge? a b = if n = 0 then none else some (some n) := by
  obtain ⟨g, h1, h2, _⟩ := C104_coauthors before h hf useShort true count
  refine ⟨g, h1, fun a b hab n hn' => ?_⟩
  rw [h2 a b]
  have : ∀ ps : List Paper, (∀ p ∈ ps, (linesOf p (if useShort then "AU" else "AF")).Nodup) →
      (ps.map (fun p => pairsShared (linesOf p (if useShort then "AU" else "AF")) a b)).sum =
      ps.countP (fun p => decide (a ∈ linesOf p (if useShort then "AU" else "AF") ∧ b ∈ linesOf p (if useShort then "AU" else "AF"))) := by
    intro ps hps
    induction ps with
    | nil => rfl
    | cons p ps ih =>
      rw [List.map_cons, List.sum_cons, ih (fun q hq => hps q (List.mem_cons_of_mem _ hq)), List.countP_cons, Nat.add_comm]
      congr 1
      rw [pairs_nodup (hps p (by simp)) hab]
      simp
  rw [this papers hn, ← hn']
  rfl

/-- `rankedSeries` of a file when the values are known. -/
theorem ranked_of (h : Setting W order) (hf : FileOk W.ws origin papers) (tag : String) (gf : Bool) (lim : Option (List FVal)) (val : Paper → Option FVal)
    (hv : ∀ p ∈ papers, value W before tag (toRec p) = .ok (val p)) :
    ∃ l : List (FVal × Nat), ranked W before order tag true false gf false lim (fileText origin papers) = some (.ok (.ok (.pairs l))) ∧
      (l.map Prod.fst).Nodup ∧
      (∀ v n, (v, n) ∈ l ↔ n = (papers.map (fun p => (vals ((val p).map fieldVal)).count v)).sum ∧ 0 < n ∧ Permitted lim v) ∧
      (gf = true → l.Pairwise (fun a b => b.2 ≤ a.2)) ∧ (gf = false → l.Pairwise (fun a b => a.2 ≤ b.2)) := by
  unfold ranked
  rw [records_eq W order h.nl h.E hf]
  simp only [Option.map_some]
  have hm : (order (papers.map toRec)).mapM (value W before tag) = .ok ((order (papers.map toRec)).map (fun r => val r.fields)) := by
    apply Lemmas.Pipeline.mapM_ok
    intro r hr
    obtain ⟨_, h2, h3⟩ := of_order h hf hr
    have := hv _ h3
    rwa [← h2] at this
  rw [hm]
  obtain ⟨l, h1, ⟨h2, h3⟩, h4, h5⟩ := Verif.Props.C09_counts (fun v : Option FVal => v.map fieldVal) ((order (papers.map toRec)).map (fun r => val r.fields)) gf lim
  refine ⟨l, congrArg (fun x => some (Except.ok x)) h1, h2, fun v n => ?_, h4, h5⟩
  rw [h3 v n]
  unfold occurrences
  rw [List.map_map]
  have := sum_order (papers := papers) h (fun r => (vals ((val r.fields).map fieldVal)).count v)
  simp only [toRec] at this
  rw [← this]
  rfl

/-- The value of one of the tags of lists of names. -/
theorem lines_value {p : Paper} (hp : PaperOk W.ws p) (tag long k : String) (hw : TagTable.Wos tag.toList long.toList) (hk : k = tag ∨ k = long)
    (ht : tag ∈ ["AF", "BE", "AU", "BA", "BF", "ED"]) :
    value W before k (toRec p) = .ok (if linesOf p tag = [] then none else some (.texts (linesOf p tag))) := by
  rw [value_eq W before hp tag long k hw hk, (WosFields.C69_lines W.prims tag.toList (List.mem_map_of_mem ht) _).1]
  split <;> rfl

/-- **C104, names ranked.** `rankedSeries` of a file under a tag of names, by either name of the tag: each name once, with the number of times the papers
list it, in the order of these numbers. -/
theorem C104_ranked (h : Setting W order) (hf : FileOk W.ws origin papers) (tag long k : String) (hw : TagTable.Wos tag.toList long.toList)
    (hk : k = tag ∨ k = long) (ht : tag ∈ ["AF", "BE", "AU", "BA", "BF", "ED"]) (gf : Bool) :
    ∃ l : List (Str × Nat), ranked W before order k true false gf false none (fileText origin papers) =
        some (.ok (.ok (.pairs (l.map (fun e => (FVal.text e.1, e.2)))))) ∧ (l.map Prod.fst).Nodup ∧
      (∀ a n, (a, n) ∈ l ↔ n = (papers.map (fun p => (linesOf p tag).count a)).sum ∧ 0 < n) ∧
      (gf = true → l.Pairwise (fun a b => b.2 ≤ a.2)) ∧ (gf = false → l.Pairwise (fun a b => a.2 ≤ b.2)) := by
  obtain ⟨L, h1, h2, h3, h4, h5⟩ := ranked_of before h hf k gf none (fun p => if linesOf p tag = [] then none else some (.texts (linesOf p tag)))
    (fun p hp => lines_value before (hf.each p hp) tag long k hw hk ht)
  have hvals : ∀ p : Paper, vals ((if linesOf p tag = [] then none else some (FVal.texts (linesOf p tag))).map fieldVal) = (linesOf p tag).map .text := by
    intro p
    by_cases hl : linesOf p tag = []
    · rw [if_pos hl, hl]; rfl
    · rw [if_neg hl]; rfl
  simp only [hvals] at h3
  obtain ⟨l, hl, e2, e3, e4, e5⟩ := retype (f := FVal.text) (fun a b e => by injection e) L h2 (fun v n hv => by
    obtain ⟨rfl, h0, _⟩ := (h3 v n).1 hv
    obtain ⟨p, _, hc⟩ := exists_pos h0
    obtain ⟨s, _, rfl⟩ := List.mem_map.1 (List.count_pos_iff.1 hc)
    exact ⟨s, rfl⟩)
  subst hl
  refine ⟨l, h1, e2, fun a n => ?_, fun g => e4 (h4 g), fun g => e5 (h5 g)⟩
  rw [← e3, h3]
  have : ∀ p : Paper, ((linesOf p tag).map FVal.text).count (.text a) = (linesOf p tag).count a :=
    fun p => List.count_map_of_injective _ _ (fun a b e => by injection e) _
  simp only [this]
  simp [Permitted]

/-- **C104, years ranked.** `rankedSeries('year')` of a file gives each year that occurs once, with the number of papers of that year. -/
theorem C104_years (h : Setting W order) (hf : FileOk W.ws origin papers) (hint : ∀ n : Nat, W.prims.int (showNat n) = some (n : Int))
    (hy : ∀ p ∈ papers, linesOf p "PY" = [] ∨ ∃ y : Nat, 1000 ≤ y ∧ y < 10000 ∧ (linesOf p "PY").head? = some (showNat y))
    (k : String) (hk : k = "PY" ∨ k = "year") (gf : Bool) :
    ∃ l : List (Nat × Nat), ranked W before order k true false gf false none (fileText origin papers) =
        some (.ok (.ok (.pairs (l.map (fun e => (FVal.num e.1, e.2)))))) ∧ (l.map Prod.fst).Nodup ∧
      (∀ y n, (y, n) ∈ l ↔ n = papers.countP (fun p => decide ((linesOf p "PY").head? = some (showNat y))) ∧ 0 < n) ∧
      (gf = true → l.Pairwise (fun a b => b.2 ≤ a.2)) ∧ (gf = false → l.Pairwise (fun a b => a.2 ≤ b.2)) := by
  have hinj : ∀ a b : Nat, showNat a = showNat b → a = b := by
    intro a b e
    have := (hint a).symm.trans ((congrArg W.prims.int e).trans (hint b))
    exact Int.ofNat.inj (Option.some.inj this)
  obtain ⟨L, h1, h2, h3, h4, h5⟩ := ranked_of before h hf k gf none (fun p => ((linesOf p "PY").head?.bind W.prims.int).map FVal.num) (by
    intro p hp
    rw [value_eq W before (hf.each p hp) "PY" "year" k (by unfold TagTable.Wos; decide +kernel) hk]
    rcases hy p hp with hl | ⟨y, h1, h2, h3⟩
    · rw [if_pos hl, hl]; rfl
    · cases hl : linesOf p "PY" with
      | nil => rw [hl] at h3; cases h3
      | cons v rest =>
        rw [hl] at h3
        obtain rfl : v = showNat y := by simpa using h3
        rw [if_neg (by simp), WosFields.C69_year_digits W.prims hint y ⟨h1, h2⟩]
        simp only [List.head?_cons, Option.bind_some, hint]
        rfl)
  have hvals : ∀ p ∈ papers, ∀ y : Nat, (vals ((((linesOf p "PY").head?.bind W.prims.int).map FVal.num).map fieldVal)).count (.num y) =
      if (linesOf p "PY").head? = some (showNat y) then 1 else 0 := by
    intro p hp y
    rcases hy p hp with hl | ⟨z, _, _, hz⟩
    · rw [hl]; rfl
    · rw [hz]
      simp only [Option.bind_some, hint, Option.map_some, fieldVal, vals, Option.some.injEq]
      by_cases e : z = y
      · subst e; simp
      · rw [if_neg (fun e' => e (hinj _ _ e'))]
        rw [List.count_eq_zero]
        simp only [List.mem_cons, FVal.num.injEq, List.not_mem_nil, or_false]
        omega
  obtain ⟨l, hl, e2, e3, e4, e5⟩ := retype (f := fun y : Nat => FVal.num y) (fun a b e => by injection e with e; exact Int.ofNat.inj e) L h2 (fun v n hv => by
    obtain ⟨rfl, h0, _⟩ := (h3 v n).1 hv
    obtain ⟨p, hp, hc⟩ := exists_pos h0
    have hm := List.count_pos_iff.1 hc
    rcases hy p hp with hl | ⟨z, _, _, hz⟩
    · rw [hl] at hm; cases hm
    · rw [hz] at hm
      simp only [Option.bind_some, hint, Option.map_some, fieldVal, vals, List.mem_cons, List.not_mem_nil, or_false] at hm
      exact ⟨z, hm⟩)
  subst hl
  refine ⟨l, h1, e2, fun y n => ?_, fun g => e4 (h4 g), fun g => e5 (h5 g)⟩
  rw [← e3, h3, List.map_congr_left (fun p hp => hvals p hp y), sum_ite]
  simp [Permitted]

/-- **C104, subjects.** The network of the subjects of a file (or of another tag of a list): two are joined as often as a paper has both, and each counts the papers that have it. How the
file breaks the list into lines does not matter. -/
theorem C104_subjects (h : Setting W order) (hf : FileOk W.ws origin papers) (tag long k : String) (hw : TagTable.Wos tag.toList long.toList)
    (hk : k = tag ∨ k = long) (ht : tag ∈ ["EM", "RI", "OI", "FU", "SC", "BN", "WC"]) (items : Paper → List Str)
    (hi : ∀ p ∈ papers, (items p = [] ↔ linesOf p tag = []) ∧ textOf p tag = "; ".toList.intercalate (items p) ∧ ∀ i ∈ items p, ¬ "; ".toList <:+: i)
    (nodeCount edgeWeight : Bool) :
    ∃ g, oneMode W before order k nodeCount edgeWeight (fileText origin papers) = some (.ok g) ∧
      (∀ a b, g.edge? a b = edgeFor edgeWeight (papers.map (fun p => pairsShared (items p) a b)).sum) ∧
      ∀ a n, n = (papers.map (fun p => (items p).count a)).sum → g.node? a = if n = 0 then none else some ⟨if nodeCount then some n else none, none⟩ := by
  have hm : (order (papers.map toRec)).mapM (value W before k) =
      .ok ((order (papers.map toRec)).map (fun r => if items r.fields = [] then none else some (.texts (items r.fields)))) := by
    apply Lemmas.Pipeline.mapM_ok
    intro r hr
    obtain ⟨h1, h2, h3⟩ := of_order h hf hr
    obtain ⟨i1, i2, i3⟩ := hi _ h3
    have := value_eq W before h1 tag long k hw hk
    rw [← h2] at this
    rw [this]
    by_cases hl : linesOf r.fields tag = []
    · rw [if_pos hl, if_pos (i1.2 hl)]
    · rw [if_neg hl, if_neg (fun e => hl (i1.1 e)), WosFields.C69_lists W.prims tag.toList (List.mem_map_of_mem ht) (items r.fields) _
        (fun e => hl (i1.1 e)) i3 i2]
      rfl
  unfold oneMode
  rw [records_eq W order h.nl h.E hf]
  simp only [Option.map_some]
  rw [hm]
  have hv : ∀ l : List Str, (vals ((if l = [] then none else some (FVal.texts l)).map fieldVal)).map nodeText = l := by
    intro l
    by_cases hl : l = []
    · rw [if_pos hl, hl]; rfl
    · rw [if_neg hl]
      show (l.map FVal.text).map nodeText = l
      rw [List.map_map]; exact List.map_id l
  obtain ⟨c1, c2⟩ := Verif.Props.C12_one_mode nodeCount edgeWeight nodeText (fun (v : Option FVal) (_ : Unit) => v.map fieldVal) ()
    ((order (papers.map toRec)).map (fun r => if items r.fields = [] then none else some (.texts (items r.fields))))
  refine ⟨_, rfl, ?_, ?_⟩
  · intro a b
    refine (c1 a b).trans ?_
    have := sum_order (papers := papers) h (fun r => pairsShared (items r.fields) a b)
    simp only [List.map_map, Function.comp_def, hv]
    exact congrArg _ this
  · intro a n hn
    have hb : (instBEqOfDecidableEq : BEq Str) = List.instBEq := lawful_beq_subsingleton _ _
    have c2a := c2 a
    rw [hb] at c2a
    refine c2a.trans ?_
    have : n = (((order (papers.map toRec)).map (fun r => if items r.fields = [] then none else some (FVal.texts (items r.fields)))).map
        (fun v => ((vals (v.map fieldVal)).map nodeText).count a)).sum := by
      have := sum_order (papers := papers) h (fun r => (items r.fields).count a)
      simp only [List.map_map, Function.comp_def, hv]
      exact hn.trans this.symm
    exact congrArg (fun m : Nat => if m = 0 then none else some (⟨if nodeCount then some m else none, none⟩ : Model.Networks.NodeAttr)) this.symm

open Classical in
/-- **C104, co-citation, in general.** Every line of the field is read as a work. The network joins two works as often as a paper cites both, where only the works are
taken that the options ask for; the works are named by what is read of them or by the whole line. -/
theorem C104_cocitation (h : Setting W order) (hf : FileOk W.ws origin papers) (env : Model.CiteNetworks.Env) (own : Model.Wos.Rec → Model.Citation.Cite)
    (o : Model.CiteNetworks.Opts) (ho : o.coreOnly = false) (hnt : o.nodeType = .full ∨ o.nodeType = .original) :
    ∃ work : Str → Model.Citation.Cite, (∀ line, ∃ q, Model.CiteParse.parseWos W.chars line = some q ∧ q.cite = work line ∧ (work line).original = line) ∧
    ∃ g, coCitations W before order env o own (fileText origin papers) = some (.ok (.ok g)) ∧
      (∀ u v, g.edge? u v = edgeFor o.weighted (papers.map (fun p => pairsShared ((((linesOf p "CR").map work).filter
        (fun c => decide (Wanted env o.nodeType o.dropAnon o.dropNonJournals o.keyWords none c))).map (nodeName o.nodeType)) u v)).sum) ∧
      ∀ n, g.hasNode n = true ↔ ∃ p ∈ papers, ∃ line ∈ linesOf p "CR",
        Wanted env o.nodeType o.dropAnon o.dropNonJournals o.keyWords none (work line) ∧ nodeName o.nodeType (work line) = n := by
  have hattr : ∀ c, HasAttr o.nodeType c := by
    intro c
    rcases hnt with e | e <;> rw [e] <;> exact trivial
  let cite : Str → Model.Citation.Cite := fun c => (Classical.choose (CiteParse.C36_total W.chars c)).cite
  have hcite : ∀ c, ∃ q, Model.CiteParse.parseWos W.chars c = some q ∧ q.cite = cite c ∧ (cite c).original = c := by
    intro c
    obtain ⟨h1, h2⟩ := Classical.choose_spec (CiteParse.C36_total W.chars c)
    exact ⟨_, h1, rfl, h2⟩
  refine ⟨cite, hcite, ?_⟩
  have hall : ∀ l : List Str, l.mapM (fun c => (Model.CiteParse.parseWos W.chars c).map Model.CiteParse.Parsed.cite) = some (l.map cite) := by
    intro l
    induction l with
    | nil => rfl
    | cons c l ih =>
      obtain ⟨q, h1, h2, _⟩ := hcite c
      rw [List.mapM_cons, h1, ih, List.map_cons, ← h2]; rfl
  let cs : Model.Wos.Rec → Option (List Model.Citation.Cite) := fun r => if linesOf r.fields "CR" = [] then none else some ((linesOf r.fields "CR").map cite)
  have hm : (order (papers.map toRec)).mapM (fun r => do return (r, citations W (← value W before "citations" r))) =
      (.ok ((order (papers.map toRec)).map (fun r => (r, cs r))) : Except AErr _) := by
    apply Lemmas.Pipeline.mapM_ok
    intro r hr
    obtain ⟨h1, h2, _⟩ := of_order h hf hr
    have := value_eq W before h1 "CR" "citations" "citations" (by unfold TagTable.Wos; decide +kernel) (.inr rfl)
    rw [← h2, (WosFields.C69_lines W.prims "AF".toList (by decide) _).2] at this
    rw [this]
    by_cases hl : linesOf r.fields "CR" = []
    · simp only [cs, if_pos hl]; rfl
    · simp only [cs, if_neg hl]
      show Except.ok (r, citations W (some (.cites _))) = _
      unfold citations
      dsimp only
      rw [hall]
  unfold coCitations
  rw [records_eq W order h.nl h.E hf]
  simp only [Option.map_some]
  rw [hm]
  have hkept : ∀ r, keptCites env o (fun p : Model.Wos.Rec × Option (List Model.Citation.Cite) => own p.1) Prod.snd
      ((order (papers.map toRec)).map (fun r => (r, cs r))) (r, cs r) = ((linesOf r.fields "CR").map cite).filter
        (fun c => decide (Wanted env o.nodeType o.dropAnon o.dropNonJournals o.keyWords none c)) := by
    intro r
    have hg : ((cs r).getD []) = (linesOf r.fields "CR").map cite := by
      by_cases hl : linesOf r.fields "CR" = []
      · simp only [cs, if_pos hl, hl]; rfl
      · simp only [cs, if_neg hl]; rfl
    unfold keptCites
    rw [hg]
    apply List.filter_congr
    intro c _
    congr 1
    unfold Enters Wanted
    simp [hattr c, ho]
  obtain ⟨g, g1, _, _, g4, g5⟩ := Verif.Props.C16_cocitation env o (fun _ => ()) (fun p : Model.Wos.Rec × Option (List Model.Citation.Cite) => own p.1) Prod.snd
    ((order (papers.map toRec)).map (fun r => (r, cs r))) (fun _ _ c _ => hattr c)
  refine ⟨g, congrArg (fun x => some (Except.ok x)) g1, ?_, ?_⟩
  · intro u v
    rw [g4, List.map_map]
    simp only [Function.comp_def, hkept]
    exact congrArg _ (sum_order (papers := papers) h (fun r => pairsShared ((((linesOf r.fields "CR").map cite).filter
        (fun c => decide (Wanted env o.nodeType o.dropAnon o.dropNonJournals o.keyWords none c))).map (nodeName o.nodeType)) u v))
  · intro n
    unfold Graph.hasNode
    rw [g5, Option.isSome_map, List.find?_isSome]
    simp only [List.mem_flatMap, decide_eq_true_eq]
    constructor
    · rintro ⟨c, ⟨q, hq, hc⟩, hn⟩
      obtain ⟨r, hr, rfl⟩ := List.mem_map.1 hq
      rw [hkept] at hc
      obtain ⟨hc1, hc2⟩ := List.mem_filter.1 hc
      obtain ⟨x, hx, rfl⟩ := List.mem_map.1 hc1
      exact ⟨r.fields, (of_order h hf hr).2.2, x, hx, by simpa using hc2, hn⟩
    · rintro ⟨p, hp, x, hx, hw, hn⟩
      refine ⟨cite x, ⟨_, List.mem_map_of_mem ((h.perm _).mem_iff.2 (List.mem_map_of_mem hp)), ?_⟩, hn⟩
      rw [hkept]
      exact List.mem_filter.2 ⟨List.mem_map_of_mem hx, by simpa using hw⟩

/-- **C104, co-citation by lines.** With the whole line as the name of a work and nothing left out, two lines are joined as often as a paper has both. -/
theorem C104_cocitation_lines (h : Setting W order) (hf : FileOk W.ws origin papers) (env : Model.CiteNetworks.Env) (own : Model.Wos.Rec → Model.Citation.Cite)
    (count weighted : Bool) :
    ∃ g, coCitations W before order env ⟨.original, false, false, .none, false, count, weighted⟩ own (fileText origin papers) = some (.ok (.ok g)) ∧
      (∀ a b : Str, g.edge? (.str a) (.str b) = edgeFor weighted
        (papers.map (fun p => pairsShared ((linesOf p "CR").filter (· ≠ [])) a b)).sum) ∧
      ∀ a : Str, g.hasNode (.str a) = true ↔ a ≠ [] ∧ ∃ p ∈ papers, a ∈ linesOf p "CR" := by
  obtain ⟨work, hwork, g, g1, g2, g3⟩ := C104_cocitation before h hf env own ⟨.original, false, false, .none, false, count, weighted⟩ rfl (.inr rfl)
  have ho : ∀ c, (work c).original = c := fun c => by obtain ⟨_, _, _, e⟩ := hwork c; exact e
  have hW : ∀ c, Wanted env .original false false .none none (work c) ↔ c ≠ [] := by
    intro c
    unfold Wanted
    simp [HasValue, ho, KeyWords.toList]
  refine ⟨g, g1, fun a b => ?_, fun a => ?_⟩
  · rw [g2]
    refine congrArg _ (congrArg _ (List.map_congr_left fun p _ => ?_))
    rw [← pairs_map (f := Model.CiteNetworks.NodeId.str) (fun x y e => by injection e), List.filter_map, List.map_map]
    rw [List.filter_congr (q := fun c => decide (c ≠ [])) (by
      intro c _
      simp only [Function.comp, hW])]
    congr 1
    apply List.map_congr_left
    intro c _
    simp [nodeName, ho]
  · rw [g3]
    constructor
    · rintro ⟨p, hp, x, hx, hw, hn⟩
      simp only [nodeName, ho] at hn
      injection hn with hn
      subst hn
      exact ⟨(hW _).1 hw, p, hp, hx⟩
    · rintro ⟨ha, p, hp, hx⟩
      exact ⟨p, hp, a, hx, (hW _).2 ha, by simp [nodeName, ho]⟩

end

/-! ## A file -/

def w : World where
  ws := Char.isWhitespace
  prims := WosFields.ascii
  chars := CiteParse.ascii
  truthy _ := true
  fin _ := .error .other
  ident := .text []
  noGrants := .texts []

def file : List Paper :=
  [[("PT".toList, ["J".toList]), ("AF".toList, ["Ada".toList, "Bob".toList]), ("CR".toList, ["Dee, 1999, X".toList, "Eve, 2001, Y".toList]),
    ("WC".toList, ["Physics; Applied".toList, "Mathematics".toList]), ("PY".toList, ["2001".toList]), ("UT".toList, ["WOS:1".toList])],
   [("PT".toList, ["J".toList]), ("AF".toList, ["Bob".toList, "Ada".toList, "Cy".toList]), ("CR".toList, ["Eve, 2001, Y".toList, "Dee, 1999, X".toList]),
    ("PY".toList, ["2001".toList]), ("UT".toList, ["WOS:2".toList])],
   [("PT".toList, ["J".toList]), ("UT".toList, ["WOS:3".toList])]]

theorem setting : Setting w List.reverse where
  nl := by decide
  E := by decide
  perm := List.reverse_perm

theorem file_ok : FileOk w.ws "FN Clarivate".toList file where
  each := by
    intro p hp
    simp only [file, List.mem_cons, List.not_mem_nil, or_false] at hp
    rcases hp with rfl | rfl | rfl <;>
    exact {
      fields := ⟨by
        intro f hf
        have : ∀ f ∈ file.flatten, f.1.length = 2 ∧ f.1 ≠ "ER".toList ∧ f.1 ≠ "  ".toList ∧ f.2 ≠ [] ∧ '\n' ∉ f.1 ∧ ∀ v ∈ f.2, '\n' ∉ v := by decide +kernel
        obtain ⟨a, b, c, d, e, g⟩ := this f (List.mem_flatten.2 ⟨_, by simp [file], hf⟩)
        exact ⟨a, b, c, d, e, g⟩, by decide +kernel⟩
      noCR := by decide +kernel
      ut := by decide +kernel
      noJ9 := by decide +kernel
      first := by
        intro f hf
        obtain rfl := Option.some.inj hf
        exact ⟨by decide, 'P', by decide, by decide⟩ }
  different := by decide +kernel
  origin := by decide +kernel

example : ∃ g, coAuthors w (fun _ => [.item "year", .mem "AF"]) List.reverse false true true (fileText "FN Clarivate".toList file) = some (.ok g) ∧
    g.edge? "Ada".toList "Bob".toList = some (some 2) ∧ g.edge? "Bob".toList "Cy".toList = some (some 1) ∧ g.edge? "Ada".toList "Dee".toList = none := by
  obtain ⟨g, h1, h2⟩ := C104_coauthors_papers (fun _ => [.item "year", .mem "AF"]) setting file_ok false true (by decide +kernel)
  exact ⟨g, h1, h2 _ _ (by decide) 2 (by decide +kernel), h2 _ _ (by decide) 1 (by decide +kernel), h2 _ _ (by decide) 0 (by decide +kernel)⟩

example : ∃ g, oneMode w (fun _ => []) List.reverse "WC" true true (fileText "FN Clarivate".toList file) = some (.ok g) ∧
    g.edge? "Physics".toList "Applied Mathematics".toList = some (some 1) := by
  obtain ⟨g, h1, h2, _⟩ := C104_subjects (fun _ => []) setting file_ok "WC" "subjects" "WC" (by unfold TagTable.Wos; decide +kernel) (.inl rfl) (by decide)
    (fun p => if linesOf p "WC" = [] then [] else ["Physics".toList, "Applied Mathematics".toList]) (by decide +kernel) true true
  exact ⟨g, h1, (h2 _ _).trans (by decide +kernel)⟩

example : ∃ g, coCitations w (fun _ => []) List.reverse ⟨id, fun _ => true, fun _ => 0⟩ ⟨.original, false, false, .none, false, true, true⟩
    (fun _ => ⟨[], [], none, none, none, none, none, none, false⟩) (fileText "FN Clarivate".toList file) = some (.ok (.ok g)) ∧
    g.edge? (.str "Dee, 1999, X".toList) (.str "Eve, 2001, Y".toList) = some (some 2) := by
  obtain ⟨g, h1, h2, _⟩ := C104_cocitation_lines (fun _ => []) setting file_ok ⟨id, fun _ => true, fun _ => 0⟩
    (fun _ => ⟨[], [], none, none, none, none, none, none, false⟩) true true
  exact ⟨g, h1, (h2 _ _).trans (by decide +kernel)⟩

private theorem int_show (n : Nat) : w.prims.int (showNat n) = some (n : Int) := by
  obtain ⟨h1, h2, h3⟩ := showAux_spec (n + 1) n (by omega)
  show (if (!(showNat n).isEmpty && (showNat n).all isDig) = true then some ((readNat (showNat n) : Nat) : Int) else none) = _
  rw [if_pos, readNat_showNat]
  have h4 : (showNat n).all isDig = true := List.all_eq_true.2 h2
  have h5 : (showNat n).isEmpty = false := by
    have : showNat n ≠ [] := h3
    simpa using this
  rw [h4, h5]; rfl

example : ∃ l : List (Nat × Nat), ranked w (fun _ => []) List.reverse "year" true false true false none (fileText "FN Clarivate".toList file) =
    some (.ok (.ok (.pairs (l.map (fun e => (FVal.num e.1, e.2)))))) ∧ (2001, 2) ∈ l ∧ (2001, 3) ∉ l := by
  obtain ⟨l, h1, _, h3, _⟩ := C104_years (fun _ => []) setting file_ok int_show (by
    intro p hp
    simp only [file, List.mem_cons, List.not_mem_nil, or_false] at hp
    rcases hp with rfl | rfl | rfl
    · exact .inr ⟨2001, by decide, by decide, by decide +kernel⟩
    · exact .inr ⟨2001, by decide, by decide, by decide +kernel⟩
    · exact .inl (by decide +kernel)) "year" (.inr rfl) true
  exact ⟨l, h1, (h3 _ _).2 (by decide +kernel), fun hm => absurd ((h3 _ _).1 hm) (by decide +kernel)⟩

example : ∃ l : List (Str × Nat), ranked w (fun _ => [.item "AF"]) List.reverse "authorsFull" true false true false none (fileText "FN Clarivate".toList file) =
    some (.ok (.ok (.pairs (l.map (fun e => (FVal.text e.1, e.2)))))) ∧ ("Ada".toList, 2) ∈ l ∧ ("Cy".toList, 1) ∈ l := by
  obtain ⟨l, h1, _, h3, _⟩ := C104_ranked (fun _ => [.item "AF"]) setting file_ok "AF" "authorsFull" "authorsFull" (by unfold TagTable.Wos; decide +kernel) (.inr rfl) (by decide) true
  exact ⟨l, h1, (h3 _ _).2 (by decide +kernel), (h3 _ _).2 (by decide +kernel)⟩

end Verif.Props.Pipeline
