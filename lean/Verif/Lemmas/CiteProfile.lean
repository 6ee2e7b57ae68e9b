import Verif.Model.CiteProfile
import Verif.Spec.CiteProfile
import Verif.Lemmas.CoNetworks

/-! # Lemmas on citation profiles -/
set_option autoImplicit false
set_option linter.unusedSimpArgs false
namespace Verif.Lemmas.CiteProfile
open Verif.Py Verif.Py.Graph Verif.Model.CoNetworks Verif.Model.CiteProfile Verif.Spec.CiteProfile

variable {ρ ν ι K : Type} [DecidableEq ν] [DecidableEq K] [Inhabited ι]

/-- The order in which the authors of a record are visited. -/
def visits : List ν → List ν
  | [] => []
  | a :: rest => (a :: rest) ++ visits rest

theorem mem_visits (n : ν) (l : List ν) : n ∈ visits l ↔ n ∈ l := by
  induction l with
  | nil => simp [visits]
  | cons a l ih => simp [visits, ih]

theorem sum_visits (f : ν → Nat) (l : List ν) : ((visits l).map f).sum = (l.zipIdx.map (fun x => (x.2 + 1) * f x.1)).sum := by
  have off : ∀ (l : List ν) (k : Nat), ((l.zipIdx (k + 1)).map (fun x => (x.2 + 1) * f x.1)).sum =
      ((l.zipIdx k).map (fun x => (x.2 + 1) * f x.1)).sum + (l.map f).sum := by
    intro l
    induction l with
    | nil => simp
    | cons a l ih =>
      intro k
      simp only [List.zipIdx_cons, List.map_cons, List.sum_cons]
      rw [ih, Nat.add_mul (k + 1) 1, Nat.one_mul]
      omega
  induction l with
  | nil => rfl
  | cons a l ih =>
    rw [visits, List.map_append, List.sum_append, ih, List.map_cons, List.sum_cons, List.zipIdx_cons, List.map_cons, List.sum_cons, off]
    simp
    omega

/-! ## The dictionaries -/

/-- What matters of a state: the profile of each name, and the profiles. -/
abbrev Abs (ν K : Type) := (ν → Option Nat) × (Nat → Profile K)

/-- A visit. -/
abbrev Event (ν K : Type) := ν × Nat × List (K × Str)

def step (s : Abs ν K) (e : Event ν K) : Abs ν K :=
  let o := (s.1 e.1).getD e.2.1
  (fun n => if n = e.1 then some o else s.1 n, fun i => if i = o then e.2.2.foldl addCite (s.2 o) else s.2 i)

def abs (s : State ν ι K) : Abs ν K := (fun n => (s.net.node? n).map (fun a => a.info.2), fun o => (s.heap.get? o).getD [])

theorem WF_coNode (count : Bool) (g : CoNet ν (ι × Nat)) (h : g.WF) (n : ν) (i : ι × Nat) : (coNode count g n i).WF := by
  unfold coNode
  split
  · exact WF_setNode h _ _
  · split
    · exact WF_setNode h _ _
    · exact h

theorem node?_coNode (count : Bool) (g : CoNet ν (ι × Nat)) (n m : ν) (i : ι × Nat) :
    ((coNode count g n i).node? m).map (fun a => a.info) = if m = n then some (((g.node? n).map (fun a => a.info)).getD i) else (g.node? m).map (fun a => a.info) := by
  unfold coNode
  cases h : g.node? n with
  | none =>
    simp only [node?_setNode]
    by_cases hm : m = n
    · simp [hm]
    · simp [hm, Ne.symm hm]
  | some a =>
    cases count
    · by_cases hm : m = n
      · simp [hm, h]
      · simp [hm]
    · simp only [if_true, node?_setNode]
      by_cases hm : m = n
      · simp [hm]
      · simp [hm, Ne.symm hm]

theorem visit_spec (count : Bool) (obj : Nat) (info : ι) (cites : List (K × Str)) (s : State ν ι K) (hw : s.net.WF) (n : ν) :
    (visit count obj info cites s n).net = coNode count s.net n (info, obj) ∧ (visit count obj info cites s n).net.WF ∧
      abs (visit count obj info cites s n) = step (abs s) (n, obj, cites) := by
  have hn := node?_coNode count s.net n n (info, obj)
  rw [if_pos rfl] at hn
  have hW := WF_coNode count s.net hw n (info, obj)
  unfold visit
  dsimp only
  cases h : (coNode count s.net n (info, obj)).node? n with
  | none => rw [h] at hn; simp at hn
  | some a =>
    refine ⟨rfl, hW, ?_⟩
    rw [h] at hn
    have ha : a.info.2 = (((abs s).1 n).getD obj) := by
      have : a.info = ((s.net.node? n).map (fun a => a.info)).getD (info, obj) := by simpa using hn
      rw [this]
      unfold abs
      dsimp only
      cases s.net.node? n <;> rfl
    unfold abs step
    dsimp only
    apply Prod.ext
    · funext m
      have hm := node?_coNode count s.net n m (info, obj)
      have : ((coNode count s.net n (info, obj)).node? m).map (fun a => a.info.2) =
          (((coNode count s.net n (info, obj)).node? m).map (fun a => a.info)).map Prod.snd := by rw [Option.map_map]; rfl
      dsimp only
      rw [this, hm]
      by_cases e : m = n
      · simp only [e, if_true, Option.map_some]
        cases s.net.node? n <;> rfl
      · simp only [e, if_false, Option.map_map]
        rfl
    · funext o
      dsimp only
      rw [Dict.get?_set]
      have ha' : a.info.2 = (Option.map (fun a => a.info.2) (s.net.node? n)).getD obj := ha
      rw [← ha']
      by_cases e : o = a.info.2
      · simp [e]
      · simp [e, Ne.symm e]

theorem inner_spec (count weighted : Bool) (obj : Nat) (info : ι) (cites : List (K × Str)) (a : ν) (rest : List ν) (s : State ν ι K) (hw : s.net.WF)
    (ha : s.net.hasNode a = true) :
    let s' := rest.foldl (inner count weighted obj info cites a) s
    s'.net = rest.foldl (fun g b => bumpEdge weighted (coNode count g b (info, obj)) a b) s.net ∧ s'.net.WF ∧
      abs s' = (rest.map (fun b => (b, obj, cites))).foldl step (abs s) := by
  induction rest generalizing s with
  | nil => exact ⟨rfl, hw, rfl⟩
  | cons b rest ih =>
    obtain ⟨h1, h2, h3⟩ := visit_spec count obj info cites s hw b
    have hna : ∀ m, s.net.hasNode m = true ∨ m = b → (visit count obj info cites s b).net.hasNode m = true := by
      intro m hm
      have := node?_coNode count s.net b m (info, obj)
      rw [h1]
      unfold hasNode at hm ⊢
      have he : ((coNode count s.net b (info, obj)).node? m).isSome = (((coNode count s.net b (info, obj)).node? m).map (fun a => a.info)).isSome := by simp
      rw [he, this]
      split
      · rfl
      · rename_i hmb
        rcases hm with hm | hm
        · simpa using hm
        · exact absurd hm hmb
    have hw' : (inner count weighted obj info cites a s b).net.WF := WF_bumpEdge h2 a b
    have hnode : ∀ m, (inner count weighted obj info cites a s b).net.node? m = (visit count obj info cites s b).net.node? m := by
      intro m
      show (bumpEdge weighted (visit count obj info cites s b).net a b).node? m = _
      rw [node?_bumpEdge h2]
      split
      · rename_i hm
        have : (visit count obj info cites s b).net.hasNode m = true := by
          rcases hm with rfl | rfl
          · exact hna _ (Or.inl ha)
          · exact hna _ (Or.inr rfl)
        unfold hasNode at this
        cases hx : (visit count obj info cites s b).net.node? m with
        | none => rw [hx] at this; cases this
        | some y => rfl
      · rfl
    have habs : abs (inner count weighted obj info cites a s b) = abs (visit count obj info cites s b) := by
      unfold abs
      apply Prod.ext
      · funext m
        dsimp only
        rw [hnode]
      · rfl
    have ha' : (inner count weighted obj info cites a s b).net.hasNode a = true := by
      unfold hasNode
      rw [hnode]
      exact hna a (Or.inl ha)
    obtain ⟨g1, g2, g3⟩ := ih _ hw' ha'
    refine ⟨?_, g2, ?_⟩
    · rw [List.foldl_cons, g1, List.foldl_cons]
      congr 1
      show bumpEdge weighted (visit count obj info cites s b).net a b = _
      rw [h1]
    · rw [List.foldl_cons, g3, habs, h3]
      rfl

theorem record_spec (count weighted : Bool) (obj : Nat) (info : ι) (cites : List (K × Str)) (l : List ν) (s : State ν ι K) (hw : s.net.WF) :
    let s' := record count weighted obj info cites s l
    s'.net = coRecord count weighted s.net (l.map (fun a => (a, (info, obj)))) ∧ s'.net.WF ∧
      abs s' = ((visits l).map (fun b => (b, obj, cites))).foldl step (abs s) := by
  induction l generalizing s with
  | nil => exact ⟨rfl, hw, rfl⟩
  | cons a rest ih =>
    obtain ⟨h1, h2, h3⟩ := visit_spec count obj info cites s hw a
    have ha : (visit count obj info cites s a).net.hasNode a = true := by
      have := node?_coNode count s.net a a (info, obj)
      rw [if_pos rfl] at this
      rw [h1]
      unfold hasNode
      cases hx : (coNode count s.net a (info, obj)).node? a with
      | none => rw [hx] at this; simp at this
      | some y => rfl
    obtain ⟨g1, g2, g3⟩ := inner_spec count weighted obj info cites a rest _ h2 ha
    obtain ⟨k1, k2, k3⟩ := ih _ g2
    refine ⟨?_, k2, ?_⟩
    · show (record count weighted obj info cites (rest.foldl _ _) rest).net = _
      rw [k1, g1, h1, List.map_cons, coRecord, List.foldl_map]
    · show abs (record count weighted obj info cites (rest.foldl _ _) rest) = _
      rw [k3, g3, h3, visits, List.map_append, List.foldl_append]
      rfl

/-! ## What the visits give -/

/-- The object of the first visit of a name. -/
def firstObj (E : List (Event ν K)) (n : ν) : Option Nat := (E.find? (fun e => decide (e.1 = n))).map (fun e => e.2.1)

/-- All citations that went into an object, in order. -/
def into (E : List (Event ν K)) (o : Nat) : List (K × Str) := (E.filter (fun e => decide (firstObj E e.1 = some o))).flatMap (fun e => e.2.2)

theorem firstObj_append (E : List (Event ν K)) (e : Event ν K) (n : ν) :
    firstObj (E ++ [e]) n = (firstObj E n).or (if e.1 = n then some e.2.1 else none) := by
  unfold firstObj
  rw [List.find?_append, Option.map_or]
  congr 1
  by_cases h : e.1 = n <;> simp [h]

theorem firstObj_mem (E : List (Event ν K)) (e : Event ν K) (he : e ∈ E) : (firstObj E e.1).isSome := by
  unfold firstObj
  rw [Option.isSome_map, List.find?_isSome]
  exact ⟨e, he, by simp⟩

theorem fold_step (E : List (Event ν K)) :
    E.foldl step (fun _ => none, fun _ => []) = (firstObj E, fun o => (into E o).foldl addCite []) := by
  induction E using List.reverseRecOn with
  | nil => rfl
  | append_singleton E e ih =>
    rw [List.foldl_append, ih]
    show step (firstObj E, fun o => (into E o).foldl addCite []) e = _
    have hfirst : firstObj (E ++ [e]) e.1 = some ((firstObj E e.1).getD e.2.1) := by
      rw [firstObj_append]
      cases firstObj E e.1 <;> simp
    have hinto : ∀ o, into (E ++ [e]) o = into E o ++ (if some o = some ((firstObj E e.1).getD e.2.1) then e.2.2 else []) := by
      intro o
      unfold into
      rw [List.filter_append, List.flatMap_append]
      congr 1
      · congr 1
        apply List.filter_congr
        intro e' he'
        have := firstObj_mem E e' he'
        rw [firstObj_append]
        cases hx : firstObj E e'.1 with
        | none => rw [hx] at this; cases this
        | some y => rfl
      · rw [List.filter_cons, hfirst]
        by_cases h : o = (firstObj E e.1).getD e.2.1
        · simp [h]
        · simp [h, Ne.symm h]
    unfold step
    dsimp only
    apply Prod.ext
    · funext n
      dsimp only
      rw [firstObj_append]
      by_cases h : n = e.1
      · subst h
        cases firstObj E e.1 <;> simp
      · simp [h, Ne.symm h]
    · funext o
      dsimp only
      rw [hinto]
      by_cases h : o = (firstObj E e.1).getD e.2.1
      · subst h
        simp [List.foldl_append]
      · simp [h]

theorem fold_addCite (l : List (K × Str)) :
    Dict.WF (l.foldl addCite []) ∧ ∀ k, Dict.get? (l.foldl addCite []) k =
      (l.find? (fun c => decide (c.1 = k))).map (fun c => (c.2, cited k l)) := by
  induction l using List.reverseRecOn with
  | nil => exact ⟨Dict.WF_nil, fun k => rfl⟩
  | append_singleton l c ih =>
    obtain ⟨h1, h2⟩ := ih
    rw [List.foldl_append]
    show Dict.WF (addCite (l.foldl addCite []) c) ∧ _
    have hc := h2 c.1
    have hcited : ∀ k, cited k (l ++ [c]) = cited k l + if c.1 = k then 1 else 0 := by
      intro k
      unfold cited
      rw [List.countP_append]
      by_cases h : c.1 = k <;> simp [h]
    have hnone : ∀ k, l.find? (fun c => decide (c.1 = k)) = none → cited k l = 0 := by
      intro k hk
      unfold cited
      rw [List.countP_eq_zero]
      rw [List.find?_eq_none] at hk
      exact hk
    generalize l.foldl addCite [] = d at h1 h2 hc
    constructor
    · unfold addCite
      split <;> exact Dict.WF_set h1 _ _
    · intro k
      show Dict.get? (addCite d c) k = _
      rw [List.find?_append, hcited]
      unfold addCite
      rw [hc]
      by_cases hk : c.1 = k
      · subst hk
        cases hf : l.find? (fun d => decide (d.1 = c.1)) with
        | none =>
          simp only [Option.map_none, Dict.get?_set, if_true]
          simp [hnone _ hf]
        | some d =>
          simp only [Option.map_some, Dict.get?_set, if_true]
          simp
      · have hs : List.find? (fun d => decide (d.1 = k)) [c] = none := by simp [hk]
        rw [hs, Option.or_none, if_neg hk, Nat.add_zero, ← h2 k]
        split <;> rw [Dict.get?_set, if_neg hk]

/-! ## The collection -/

/-- The visits of a collection. -/
def events (authors : ρ → List ν) (cites : ρ → List (K × Str)) (l : List (ρ × Nat)) : List (Event ν K) :=
  l.flatMap (fun p => (visits (authors p.1)).map (fun a => (a, p.2, cites p.1)))

theorem collect_spec (weighted drop count : Bool) (isJournal : ρ → Bool) (authors : ρ → List ν) (info : ρ → ι) (cites : ρ → List (K × Str)) (recs : List ρ) :
    let s := collect weighted drop count isJournal authors info cites recs
    s.net = recs.zipIdx.foldl (fun g p => coRecord count weighted g ((taken drop isJournal authors p.1).map (fun a => (a, (info p.1, p.2))))) (Graph.empty false) ∧
    abs s = (events (taken drop isJournal authors) cites recs.zipIdx).foldl step (fun _ => none, fun _ => []) := by
  have key : ∀ (l : List (ρ × Nat)) (s : State ν ι K), s.net.WF →
      (l.foldl (fun s p => if drop && !isJournal p.1 then s else record count weighted p.2 (info p.1) (cites p.1) s (authors p.1)) s).net =
        l.foldl (fun g p => coRecord count weighted g ((taken drop isJournal authors p.1).map (fun a => (a, (info p.1, p.2))))) s.net ∧
      abs (l.foldl (fun s p => if drop && !isJournal p.1 then s else record count weighted p.2 (info p.1) (cites p.1) s (authors p.1)) s) =
        (events (taken drop isJournal authors) cites l).foldl step (abs s) := by
    intro l
    induction l with
    | nil => exact fun s _ => ⟨rfl, rfl⟩
    | cons p l ih =>
      intro s hw
      have he : (if drop && !isJournal p.1 then s else record count weighted p.2 (info p.1) (cites p.1) s (authors p.1)) =
          record count weighted p.2 (info p.1) (cites p.1) s (taken drop isJournal authors p.1) := by
        unfold taken
        cases drop <;> cases isJournal p.1 <;> rfl
      obtain ⟨h1, h2, h3⟩ := record_spec count weighted p.2 (info p.1) (cites p.1) (taken drop isJournal authors p.1) s hw
      rw [List.foldl_cons, List.foldl_cons, he]
      obtain ⟨g1, g2⟩ := ih _ h2
      refine ⟨by rw [g1, h1], ?_⟩
      rw [g2, h3]
      unfold events
      rw [List.flatMap_cons, List.foldl_append]
  exact key recs.zipIdx ⟨Graph.empty false, []⟩ (WF_empty false)

theorem firstObj_events (authors : ρ → List ν) (cites : ρ → List (K × Str)) (recs : List ρ) (n : ν) :
    firstObj (events authors cites recs.zipIdx) n = firstRecord authors recs n := by
  have key : ∀ (recs : List ρ) (k : Nat), firstObj (events authors cites (recs.zipIdx k)) n = (firstRecord authors recs n).map (· + k) := by
    intro recs
    induction recs with
    | nil => intro k; rfl
    | cons r recs ih =>
      intro k
      have hsplit : firstObj (events authors cites ((r :: recs).zipIdx k)) n =
          ((((visits (authors r)).map (fun a => (a, k, cites r))).find? (fun e => decide (e.1 = n))).map (fun e => e.2.1)).or
            (firstObj (events authors cites (recs.zipIdx (k + 1))) n) := by
        unfold firstObj events
        rw [List.zipIdx_cons, List.flatMap_cons, List.find?_append, Option.map_or]
      rw [hsplit, ih]
      unfold firstRecord
      rw [List.findIdx?_cons]
      by_cases hn : n ∈ authors r
      · have : ((visits (authors r)).map (fun a => (a, k, cites r))).find? (fun e => decide (e.1 = n)) = some (n, k, cites r) := by
          rw [List.find?_map]
          have hv := (mem_visits n (authors r)).2 hn
          cases hf : (visits (authors r)).find? ((fun e : Event ν K => decide (e.1 = n)) ∘ fun a => (a, k, cites r)) with
          | none =>
            rw [List.find?_eq_none] at hf
            exact absurd (by simp) (hf n hv)
          | some a =>
            have := List.find?_some hf
            simp at this
            simp [this]
        rw [this]
        simp [hn]
      · have : ((visits (authors r)).map (fun a => (a, k, cites r))).find? (fun e => decide (e.1 = n)) = none := by
          rw [List.find?_eq_none]
          intro e he
          obtain ⟨a, ha, rfl⟩ := List.mem_map.1 he
          have := (mem_visits a (authors r)).1 ha
          simp only [decide_eq_true_eq]
          rintro rfl
          exact hn this
        rw [this]
        simp only [Option.map_none, Option.none_or, hn, decide_false, Bool.false_eq_true, if_false, Option.map_map]
        congr 1
        funext i
        simp
        omega
  have := key recs 0
  simpa using this

theorem cited_append (k : K) (a b : List (K × Str)) : cited k (a ++ b) = cited k a + cited k b := List.countP_append

theorem cited_into (authors : ρ → List ν) (cites : ρ → List (K × Str)) (recs : List ρ) (n : ν) (o : Nat) (ho : firstRecord authors recs n = some o) (k : K) :
    cited k (into (events authors cites recs.zipIdx) o) = shared authors cites recs n k := by
  have h1 : ∀ (q : Event ν K → Bool) (E : List (Event ν K)), cited k ((E.filter q).flatMap (fun e => e.2.2)) = (E.map (fun e => if q e then cited k e.2.2 else 0)).sum := by
    intro q E
    induction E with
    | nil => rfl
    | cons e E ih =>
      rw [List.filter_cons, List.map_cons, List.sum_cons, ← ih]
      split
      · rw [List.flatMap_cons, cited_append]
      · simp
  unfold into
  rw [h1]
  have h2 : ∀ (q : ν → Bool) (l : List (ρ × Nat)), ((events authors cites l).map (fun e => if q e.1 then cited k e.2.2 else 0)).sum =
      (l.map (fun p => places q (authors p.1) * cited k (cites p.1))).sum := by
    intro q l
    induction l with
    | nil => rfl
    | cons p l ih =>
      unfold events at ih ⊢
      rw [List.flatMap_cons, List.map_append, List.sum_append, ih, List.map_cons, List.sum_cons, List.map_map]
      congr 1
      have := sum_visits (fun a => if q a then cited k (cites p.1) else 0) (authors p.1)
      show ((visits (authors p.1)).map (fun a => if q a then cited k (cites p.1) else 0)).sum = _
      rw [this]
      unfold places
      generalize (authors p.1).zipIdx = z
      induction z with
      | nil => simp
      | cons x z ihz =>
        rw [List.map_cons, List.sum_cons, List.map_cons, List.sum_cons, ihz]
        split <;> simp [Nat.add_mul]
  have h3 : (fun e : Event ν K => if decide (firstObj (events authors cites recs.zipIdx) e.1 = some o) = true then cited k e.2.2 else 0) =
      (fun e => if (fun a => decide (firstRecord authors recs a = firstRecord authors recs n)) e.1 = true then cited k e.2.2 else 0) := by
    funext e
    rw [firstObj_events, ho]
  rw [h3]
  refine (h2 (fun a => decide (firstRecord authors recs a = firstRecord authors recs n)) _).trans ?_
  unfold shared
  have h4 : recs.zipIdx.map (fun p => places (fun a => decide (firstRecord authors recs a = firstRecord authors recs n)) (authors p.1) * cited k (cites p.1)) =
      (recs.zipIdx.map Prod.fst).map (fun r => places (fun a => decide (firstRecord authors recs a = firstRecord authors recs n)) (authors r) * cited k (cites r)) := by
    rw [List.map_map]; rfl
  rw [h4, List.zipIdx_map_fst]

theorem find_into (authors : ρ → List ν) (cites : ρ → List (K × Str)) (recs : List ρ) (n : ν) (o : Nat) (ho : firstRecord authors recs n = some o) (k : K) :
    (into (events authors cites recs.zipIdx) o).find? (fun c => decide (c.1 = k)) = firstCitation authors cites recs n k := by
  unfold into
  have h3 : (fun e : Event ν K => decide (firstObj (events authors cites recs.zipIdx) e.1 = some o)) =
      (fun e => decide (firstRecord authors recs e.1 = firstRecord authors recs n)) := by
    funext e
    rw [firstObj_events, ho]
  rw [h3]
  unfold firstCitation
  generalize hq : (fun a => decide (firstRecord authors recs a = firstRecord authors recs n)) = q
  have hq' : (fun e : Event ν K => decide (firstRecord authors recs e.1 = firstRecord authors recs n)) = fun e => q e.1 := by
    rw [← hq]
  rw [hq']
  have key : ∀ (l : List (ρ × Nat)), (((events authors cites l).filter (fun e => q e.1)).flatMap (fun e => e.2.2)).find? (fun c => decide (c.1 = k)) =
      (l.map Prod.fst).findSome? (fun r => if (authors r).any q then (cites r).find? (fun c => decide (c.1 = k)) else none) := by
    intro l
    induction l with
    | nil => rfl
    | cons p l ih =>
      have hone : ∀ vs : List ν, (((vs.map (fun a => ((a, p.2, cites p.1) : Event ν K))).filter (fun e => q e.1)).flatMap (fun e => e.2.2)).find? (fun c => decide (c.1 = k)) =
          if vs.any q then (cites p.1).find? (fun c => decide (c.1 = k)) else none := by
        intro vs
        induction vs with
        | nil => simp
        | cons v vs ihv =>
          rw [List.map_cons, List.filter_cons, List.any_cons]
          by_cases hv : q v = true
          · simp only [hv, if_true, List.flatMap_cons, List.find?_append, ihv, Bool.true_or]
            cases (cites p.1).find? (fun c => decide (c.1 = k)) <;> simp
          · simp only [hv, if_false, ihv, Bool.false_or, Bool.false_eq_true]
      have hany : (visits (authors p.1)).any q = (authors p.1).any q := by
        rw [Bool.eq_iff_iff, List.any_eq_true, List.any_eq_true]
        exact exists_congr (fun a => and_congr_left' (mem_visits a _))
      unfold events at ih ⊢
      rw [List.flatMap_cons, List.filter_append, List.flatMap_append, List.find?_append, ih, hone, hany, List.map_cons, List.findSome?_cons]
      cases (if (authors p.1).any q then (cites p.1).find? (fun c => decide (c.1 = k)) else none) <;> rfl
  rw [key, List.zipIdx_map_fst]

end Verif.Lemmas.CiteProfile
