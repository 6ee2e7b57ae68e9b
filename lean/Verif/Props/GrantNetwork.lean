import Verif.Model.GrantNetwork
import Verif.Props.Grants
import Verif.Props.CoNetworks

/-!
# C85: the co-investigator network of a collection of grants

`C49` says what network comes from given lists of names. Here the names are those the grants give. What should hold: every grant gives what
`getInvestigators` (or `getInstitutions`) gives for the same tags when called on it alone, whatever the other grants are.
-/
set_option autoImplicit false
set_option linter.unusedSimpArgs false
set_option linter.unusedSectionVars false
namespace Verif.Props.GrantNetwork
open Verif.Py Verif.Model.Grants Verif.Model.CoNetworks Verif.Model.GrantNetwork Verif.Spec

variable (ws : Char → Bool) (lower : Str → Str) (inst : Bool) (sep : Str)

theorem left_same (g : G) (tags : Tags) (h : (∀ l, tags ≠ .many l) ∨ g.1 = .base) : left lower inst g tags = tags := by
  cases tags with
  | none => rfl
  | one t => rfl
  | many l =>
    rcases h with h | h
    · exact absurd rfl (h l)
    · unfold left used
      rw [h]

theorem readAll_same (tags : Tags) (gs : List G) (h : (∀ l, tags ≠ .many l) ∨ ∀ g ∈ gs, g.1 = .base) :
    readAll ws lower inst sep tags gs = (gs.mapM (fun g => names ws lower inst sep g tags), tags) := by
  induction gs with
  | nil => rfl
  | cons g gs ih =>
    have hl : left lower inst g tags = tags := left_same lower inst g tags (h.imp id (fun h => h g (by simp)))
    rw [readAll, hl, ih (h.imp id (fun h g' hg => h g' (by simp [hg]))), List.mapM_cons]
    cases names ws lower inst sep g tags with
    | error e => rfl
    | ok ns =>
      dsimp only
      cases List.mapM (fun g => names ws lower inst sep g tags) gs <;> rfl

/-- C85, without a list of tags, or when no grant adds to it: the network is that of the names each grant gives by itself, and the argument is as it was. -/
theorem C85_alone_partial (count weighted : Bool) (tags : Tags) (gs : List G) (h : (∀ l, tags ≠ .many l) ∨ ∀ g ∈ gs, g.1 = .base) :
    network ws lower inst sep count weighted tags gs =
      ((gs.mapM (fun g => names ws lower inst sep g tags)).map (networkCoInvestigator count weighted (fun ns => ns)), tags) := by
  unfold network
  rw [readAll_same ws lower inst sep tags gs h]
  cases List.mapM (fun g => names ws lower inst sep g tags) gs <;> rfl

/-! ## NSF grants and a list -/

/-- The tag of NSF grants. -/
def own (inst : Bool) : Str := if inst then "Institution".toList else "Investigator".toList

theorem readAll_nsf (gs : List G) (hk : ∀ g ∈ gs, g.1 = .nsf) (l : List Str) (nss : List (List (Str × Str))) (t : Tags)
    (h : readAll ws lower inst sep (.many l) gs = (.ok nss, t)) :
    t = .many (l ++ List.replicate gs.length (own inst)) ∧ nss.length = gs.length ∧
    ∀ pre g post, gs = pre ++ g :: post → ∃ a ns b, nss = a ++ ns :: b ∧ a.length = pre.length ∧
      investigatorsOf ws g.2 sep (l ++ List.replicate (pre.length + 1) (own inst)) = .ok ns := by
  induction gs generalizing l nss t with
  | nil => cases h; exact ⟨by simp, rfl, fun pre g post e => by simp at e⟩
  | cons g gs ih =>
    have hg := hk g (by simp)
    have hu : used lower inst g (.many l) = l ++ [own inst] := by unfold used; rw [hg]; rfl
    rw [readAll] at h
    cases hn : names ws lower inst sep g (.many l) with
    | error e => rw [hn] at h; cases h
    | ok ns =>
      rw [hn] at h
      dsimp only at h
      have hl : left lower inst g (.many l) = .many (l ++ [own inst]) := by unfold left; dsimp only; rw [hu]
      rw [hl] at h
      cases hr : readAll ws lower inst sep (.many (l ++ [own inst])) gs with
      | mk r t' =>
        rw [hr] at h
        cases r with
        | error e => cases h
        | ok nss' =>
          cases h
          obtain ⟨h1, h2, h3⟩ := ih (fun g' hg' => hk g' (by simp [hg'])) _ _ _ hr
          refine ⟨by rw [h1]; simp [List.replicate_succ], by simp [h2], ?_⟩
          intro pre g' post e
          cases pre with
          | nil =>
            obtain ⟨rfl, _⟩ := List.cons.inj e
            refine ⟨[], ns, nss', rfl, rfl, ?_⟩
            unfold names at hn
            rw [hu] at hn
            exact hn
          | cons p pre =>
            obtain ⟨_, e⟩ := List.cons.inj e
            obtain ⟨a, ns', b, e1, e2, e3⟩ := h3 pre g' post e
            refine ⟨ns :: a, ns', b, by rw [e1]; rfl, by simp [e2], ?_⟩
            rw [← e3, List.append_assoc]
            rfl

theorem investigatorsOf_append (d : Fields) (a b : List Str) (out : List (Str × Str)) : investigatorsOf ws d sep (a ++ b) = .ok out ↔
    ∃ x y, investigatorsOf ws d sep a = .ok x ∧ investigatorsOf ws d sep b = .ok y ∧ out = x ++ y := by
  induction a generalizing out with
  | nil =>
    constructor
    · intro h; exact ⟨[], out, rfl, h, rfl⟩
    · rintro ⟨x, y, h1, h2, rfl⟩
      cases h1
      exact h2
  | cons t a ih =>
    rw [List.cons_append, investigatorsOf, investigatorsOf]
    cases Dict.get? d t with
    | none => exact ih out
    | some v =>
      dsimp only
      cases namesOf ws sep v with
      | error e =>
        constructor
        · intro h; cases h
        · rintro ⟨x, y, h1, _⟩; cases h1
      | ok ns =>
        dsimp only
        constructor
        · intro h
          cases hr : investigatorsOf ws d sep (a ++ b) with
          | error e => rw [hr] at h; cases h
          | ok r =>
            rw [hr] at h
            cases h
            obtain ⟨x, y, h1, h2, rfl⟩ := (ih r).1 hr
            exact ⟨_, y, by rw [h1], h2, by simp⟩
        · rintro ⟨x, y, h1, h2, rfl⟩
          cases hr : investigatorsOf ws d sep a with
          | error e => rw [hr] at h1; cases h1
          | ok r =>
            rw [hr] at h1
            cases h1
            rw [(ih _).2 ⟨r, y, hr, h2, rfl⟩]
            simp

theorem investigatorsOf_replicate (d : Fields) (n : Nat) (t : Str) (out : List (Str × Str))
    (h : investigatorsOf ws d sep (List.replicate (n + 1) t) = .ok out) :
    ∃ x, investigatorsOf ws d sep [t] = .ok x ∧ out = (List.replicate (n + 1) x).flatten := by
  induction n generalizing out with
  | zero => exact ⟨out, h, by simp⟩
  | succ n ih =>
    rw [List.replicate_succ] at h
    obtain ⟨x, y, h1, h2, rfl⟩ := (investigatorsOf_append ws sep d [t] _ out).1 h
    obtain ⟨x', h3, rfl⟩ := ih y h2
    rw [h1] at h3
    cases h3
    exact ⟨x, h1, by rw [List.replicate_succ (n := n + 1), List.flatten_cons]⟩

/-- C85 fails for a list of tags and NSF grants: the `k`-th grant (from 0) gives the names of the listed tags and its own investigators `k + 1` times, and
the caller's list is longer by one tag for every grant. -/
theorem C85_nsf_list (count weighted : Bool) (l : List Str) (gs : List G) (hk : ∀ g ∈ gs, g.1 = .nsf) (N : CoNet Str Str) (t : Tags)
    (h : network ws lower inst sep count weighted (.many l) gs = (.ok N, t)) :
    t = .many (l ++ List.replicate gs.length (own inst)) ∧
    ∃ nss, N = networkCoInvestigator count weighted (fun ns => ns) nss ∧ nss.length = gs.length ∧
      ∀ pre g post, gs = pre ++ g :: post → ∃ a x y b, nss = a ++ (x ++ (List.replicate (pre.length + 1) y).flatten) :: b ∧ a.length = pre.length ∧
        investigatorsOf ws g.2 sep l = .ok x ∧ investigatorsOf ws g.2 sep [own inst] = .ok y := by
  unfold network at h
  cases hr : readAll ws lower inst sep (.many l) gs with
  | mk r t' =>
    rw [hr] at h
    cases r with
    | error e => cases h
    | ok nss =>
      cases h
      obtain ⟨h1, h2, h3⟩ := readAll_nsf ws lower inst sep gs hk l nss _ hr
      refine ⟨h1, nss, rfl, h2, fun pre g post e => ?_⟩
      obtain ⟨a, ns, b, e1, e2, e3⟩ := h3 pre g post e
      obtain ⟨x, y, f1, f2, rfl⟩ := (investigatorsOf_append ws sep g.2 l _ ns).1 e3
      obtain ⟨z, f3, rfl⟩ := investigatorsOf_replicate ws sep g.2 _ _ _ f2
      exact ⟨a, x, z, b, e1, e2, f1, f3⟩

theorem pairsShared_perm {ν : Type} [DecidableEq ν] (l l' : List ν) (h : l.Perm l') (u v : ν) : pairsShared l u v = pairsShared l' u v := by
  unfold pairsShared
  rw [h.count_eq u, h.count_eq v]

theorem pairsShared_twice {ν : Type} [DecidableEq ν] (x y z : List ν) (n : ν) (h : n ∈ y) : pairsShared (x ++ (y ++ (y ++ z))) n n ≠ 0 := by
  unfold pairsShared
  rw [if_pos rfl]
  have h1 : 1 ≤ y.count n := List.count_pos_iff.2 h
  have : 2 ≤ (x ++ (y ++ (y ++ z))).count n := by
    simp only [List.count_append]
    omega
  exact (Nat.choose_pos this).ne'

theorem sum_zero (l : List Nat) (h : l.sum = 0) (x : Nat) (hx : x ∈ l) : x = 0 := by
  induction l with
  | nil => cases hx
  | cons a l ih =>
    rw [List.sum_cons] at h
    rcases List.mem_cons.1 hx with rfl | hx
    · omega
    · exact ih (by omega) hx

/-- C85 fails for a list of tags and NSF grants: everyone who holds a grant that is not the first is linked to themselves. -/
theorem C85_nsf_self (count weighted : Bool) (l : List Str) (pre : List G) (g : G) (post : List G) (hk : ∀ g' ∈ pre ++ g :: post, g'.1 = .nsf)
    (hp : pre ≠ []) (N : CoNet Str Str) (t : Tags) (h : network ws lower inst sep count weighted (.many l) (pre ++ g :: post) = (.ok N, t))
    (y : List (Str × Str)) (hy : investigatorsOf ws g.2 sep [own inst] = .ok y) (n : Str) (hn : n ∈ y.map Prod.fst) : (N.edge? n n).isSome = true := by
  obtain ⟨_, nss, rfl, _, h3⟩ := C85_nsf_list ws lower inst sep count weighted l _ hk N t h
  obtain ⟨a, x, y', b, e, _, _, hy'⟩ := h3 pre g post rfl
  rw [hy] at hy'
  cases hy'
  rw [(C49_edges_nodes count weighted (fun ns => ns) nss).2.2.1 n n]
  unfold edgeFor
  split
  · rename_i h0
    exfalso
    have := sum_zero _ h0 (pairsShared ((x ++ (List.replicate (pre.length + 1) y).flatten).map Prod.fst) n n)
      (List.mem_map.2 ⟨_, by rw [e]; simp, rfl⟩)
    obtain ⟨k, hk⟩ : ∃ k, pre.length = k + 1 := ⟨pre.length - 1, by have := List.length_pos_iff.2 hp; omega⟩
    rw [hk, List.replicate_succ, List.replicate_succ, List.flatten_cons, List.flatten_cons, List.map_append, List.map_append, List.map_append] at this
    exact pairsShared_twice _ _ _ n hn this
  · rfl

/-! ## NSERC grants and a list -/

/-- What marks the tags of NSERC grants. -/
def mark (inst : Bool) : Str := if inst then "institution".toList else "name-".toList

theorem used_nserc (d : Fields) (hd : Dict.WF d) (l : List Str) : used lower inst (.nserc, d) (.many l) =
    l ++ (Dict.keys d).filter (fun k => decide (Str.contains (mark inst) (lower k) = true ∧ k ∉ l)) := by
  show nsercTags lower (mark inst) d (.many l) = _
  unfold nsercTags
  dsimp only
  generalize hK : Dict.keys d = ks
  have hn : ks.Nodup := by rw [← hK]; exact hd
  clear hK
  induction ks generalizing l with
  | nil => simp
  | cons k ks ih =>
    have hk := (List.nodup_cons.1 hn)
    rw [List.foldl_cons, ih _ hk.2]
    by_cases h : Str.contains (mark inst) (lower k) = true ∧ k ∉ l
    · rw [if_pos h, List.filter_cons_of_pos (by simpa using h), List.append_assoc]
      congr 1
      rw [List.singleton_append]
      congr 1
      apply List.filter_congr
      intro j hj
      have : j ≠ k := by rintro rfl; exact hk.1 hj
      simp [this]
    · rw [if_neg h, List.filter_cons_of_neg (by simpa using h)]

theorem investigatorsOf_filter (d : Fields) (l : List Str) : investigatorsOf ws d sep l = investigatorsOf ws d sep (l.filter (fun t => (Dict.get? d t).isSome)) := by
  induction l with
  | nil => rfl
  | cons t l ih =>
    cases h : Dict.get? d t with
    | none => rw [List.filter_cons_of_neg (by simp [h]), investigatorsOf, h]; exact ih
    | some v => rw [List.filter_cons_of_pos (by simp [h]), investigatorsOf, investigatorsOf, h, ih]

theorem investigatorsOf_perm (d : Fields) (l l' : List Str) (hp : l.Perm l') (out : List (Str × Str)) (h : investigatorsOf ws d sep l = .ok out) :
    ∃ out', investigatorsOf ws d sep l' = .ok out' ∧ out.Perm out' := by
  induction hp generalizing out with
  | nil => exact ⟨out, h, .refl _⟩
  | cons t _ ih =>
    obtain ⟨x, y, h1, h2, rfl⟩ := (investigatorsOf_append ws sep d [t] _ out).1 h
    obtain ⟨y', h3, h4⟩ := ih y h2
    exact ⟨x ++ y', (investigatorsOf_append ws sep d [t] _ _).2 ⟨x, y', h1, h3, rfl⟩, h4.append_left x⟩
  | swap s t l =>
    obtain ⟨x, y, h1, h2, rfl⟩ := (investigatorsOf_append ws sep d [t] _ out).1 h
    obtain ⟨z, w, h3, h4, rfl⟩ := (investigatorsOf_append ws sep d [s] _ y).1 h2
    refine ⟨z ++ (x ++ w), (investigatorsOf_append ws sep d [s] _ _).2 ⟨z, x ++ w, h3, (investigatorsOf_append ws sep d [t] _ _).2 ⟨x, w, h1, h4, rfl⟩, rfl⟩, ?_⟩
    rw [← List.append_assoc, ← List.append_assoc]
    exact List.perm_append_comm.append_right w
  | trans _ _ ih1 ih2 =>
    obtain ⟨o1, h1, p1⟩ := ih1 out h
    obtain ⟨o2, h2, p2⟩ := ih2 o1 h1
    exact ⟨o2, h2, p1.trans p2⟩

/-- A list of tags that earlier NSERC grants have added to. -/
structure Grown (lower : Str → Str) (inst : Bool) (l ex : List Str) : Prop where
  nodup : ex.Nodup
  fresh : ∀ t ∈ ex, t ∉ l
  marked : ∀ t ∈ ex, Str.contains (mark inst) (lower t) = true

theorem used_grown (d : Fields) (hd : Dict.WF d) (l ex : List Str) (h : Grown lower inst l ex) :
    ∃ ex', used lower inst (.nserc, d) (.many (l ++ ex)) = l ++ ex' ∧ Grown lower inst l ex' ∧
      ∀ out, names ws lower inst sep (.nserc, d) (.many l) = .ok out →
        ∃ out', names ws lower inst sep (.nserc, d) (.many (l ++ ex)) = .ok out' ∧ out.Perm out' := by
  refine ⟨ex ++ (Dict.keys d).filter (fun k => decide (Str.contains (mark inst) (lower k) = true ∧ k ∉ l ++ ex)), by rw [used_nserc lower inst d hd, List.append_assoc], ⟨?_, ?_, ?_⟩, ?_⟩
  · rw [List.nodup_append]
    refine ⟨h.nodup, List.Nodup.filter _ hd, ?_⟩
    intro a ha b hb e
    subst e
    have := (List.mem_filter.1 hb).2
    simp only [decide_eq_true_eq, List.mem_append, not_or] at this
    exact this.2.2 ha
  · intro t ht
    rcases List.mem_append.1 ht with ht | ht
    · exact h.fresh t ht
    · have := (List.mem_filter.1 ht).2
      simp only [decide_eq_true_eq, List.mem_append, not_or] at this
      exact this.2.1
  · intro t ht
    rcases List.mem_append.1 ht with ht | ht
    · exact h.marked t ht
    · have := (List.mem_filter.1 ht).2
      simp only [decide_eq_true_eq] at this
      exact this.1
  · intro out ho
    unfold names at ho ⊢
    rw [used_nserc lower inst d hd, investigatorsOf_filter] at ho ⊢
    refine investigatorsOf_perm ws sep d _ _ ?_ out ho
    rw [List.append_assoc]
    rw [List.filter_append, List.filter_append]
    apply List.Perm.append_left
    apply (List.perm_ext_iff_of_nodup (List.Nodup.filter _ (List.Nodup.filter _ hd)) ?_).2
    · intro t
      have hm : (Dict.get? d t).isSome = true ↔ t ∈ Dict.keys d := by rw [Dict.mem_keys_iff]
      simp only [List.mem_filter, List.mem_append, decide_eq_true_eq, hm]
      constructor
      · rintro ⟨⟨h1, h2, h3⟩, _⟩
        by_cases hx : t ∈ ex
        · exact ⟨Or.inl hx, h1⟩
        · exact ⟨Or.inr ⟨h1, h2, by rintro (h | h) <;> contradiction⟩, h1⟩
      · rintro ⟨h1 | ⟨h1, h2, h3⟩, h4⟩
        · exact ⟨⟨h4, h.marked t h1, h.fresh t h1⟩, h4⟩
        · exact ⟨⟨h1, h2, fun h => h3 (Or.inl h)⟩, h4⟩
    · apply List.Nodup.filter
      rw [List.nodup_append]
      refine ⟨h.nodup, List.Nodup.filter _ hd, ?_⟩
      intro a ha b hb e
      subst e
      have := (List.mem_filter.1 hb).2
      simp only [decide_eq_true_eq, List.mem_append, not_or] at this
      exact this.2.2 ha

theorem readAll_nserc (gs : List G) (hk : ∀ g ∈ gs, g.1 = .nserc ∧ Dict.WF g.2) (l ex : List Str) (hx : Grown lower inst l ex)
    (nss : List (List (Str × Str))) (ha : List.Forall₂ (fun g ns => names ws lower inst sep g (.many l) = .ok ns) gs nss) :
    ∃ nss' ex', readAll ws lower inst sep (.many (l ++ ex)) gs = (.ok nss', .many (l ++ ex')) ∧ List.Forall₂ List.Perm nss nss' ∧ Grown lower inst l ex' := by
  induction ha generalizing ex with
  | nil => exact ⟨[], ex, rfl, .nil, hx⟩
  | @cons g ns gs nss h1 _ ih =>
    obtain ⟨k, d⟩ := g
    obtain ⟨rfl, hd⟩ : k = .nserc ∧ Dict.WF d := hk (k, d) (by simp)
    obtain ⟨ex', e1, e2, e3⟩ := used_grown ws lower inst sep d hd l ex hx
    obtain ⟨ns', e4, e5⟩ := e3 ns h1
    obtain ⟨nss', ex'', f1, f2, f3⟩ := ih (fun g hg => hk g (by simp [hg])) ex' e2
    refine ⟨ns' :: nss', ex'', ?_, .cons e5 f2, f3⟩
    rw [readAll, e4]
    dsimp only
    have : left lower inst (.nserc, d) (.many (l ++ ex)) = .many (l ++ ex') := by unfold left; dsimp only; rw [e1]
    rw [this, f1]

/-- C85, NSERC grants and a list of tags: the list grows, but what a grant adds is either absent from another grant or read there anyway, so that the
edges and nodes are those of the names each grant gives by itself. -/
theorem C85_nserc_list_partial (count weighted : Bool) (l : List Str) (gs : List G) (hk : ∀ g ∈ gs, g.1 = .nserc ∧ Dict.WF g.2)
    (nss : List (List (Str × Str))) (ha : List.Forall₂ (fun g ns => names ws lower inst sep g (.many l) = .ok ns) gs nss) :
    ∃ N t, network ws lower inst sep count weighted (.many l) gs = (.ok N, t) ∧
      (∀ u v, N.edge? u v = edgeFor weighted (nss.map (fun ns => pairsShared (ns.map Prod.fst) u v)).sum) ∧
      (∀ n, N.hasNode n = true ↔ ∃ ns ∈ nss, n ∈ ns.map Prod.fst) := by
  obtain ⟨nss', ex', h1, h2, _⟩ := readAll_nserc ws lower inst sep gs hk l [] ⟨.nil, by simp, by simp⟩ nss ha
  rw [List.append_nil] at h1
  refine ⟨networkCoInvestigator count weighted (fun ns => ns) nss', .many (l ++ ex'), by unfold network; rw [h1], ?_, ?_⟩
  · intro u v
    rw [(C49_edges_nodes count weighted (fun ns => ns) nss').2.2.1 u v]
    congr 2
    clear ha h1
    induction h2 with
    | nil => rfl
    | cons h _ ih =>
      rw [List.map_cons, List.map_cons, ih]
      congr 1
      exact (pairsShared_perm _ _ (h.map Prod.fst) u v).symm
  · intro n
    rw [(C49_edges_nodes count weighted (fun ns => ns) nss').2.2.2 n]
    clear ha h1
    induction h2 with
    | nil => simp
    | cons h _ ih =>
      simp only [List.mem_cons, exists_eq_or_imp]
      rw [ih, (h.map Prod.fst).mem_iff]

/-! ## Order -/

theorem perm_sum (l l' : List Nat) (h : l.Perm l') : l.sum = l'.sum := by
  induction h with
  | nil => rfl
  | cons x _ ih => simp [ih]
  | swap x y l => simp only [List.sum_cons]; omega
  | trans _ _ h1 h2 => rw [h1, h2]

/-- C85: where every grant is read by itself, the order of the grants does not matter for edges and nodes. -/
theorem C85_order_partial (count weighted : Bool) (tags : Tags) (gs gs' : List G) (hp : gs.Perm gs') (h : (∀ l, tags ≠ .many l) ∨ ∀ g ∈ gs, g.1 = .base)
    (N : CoNet Str Str) (t : Tags) (hN : network ws lower inst sep count weighted tags gs = (.ok N, t)) :
    ∃ N', network ws lower inst sep count weighted tags gs' = (.ok N', t) ∧ (∀ u v, N'.edge? u v = N.edge? u v) ∧ ∀ n, N'.hasNode n = N.hasNode n := by
  have hm : ∀ (gs gs' : List G), gs.Perm gs' → ∀ nss, gs.mapM (fun g => names ws lower inst sep g tags) = .ok nss →
      ∃ nss', gs'.mapM (fun g => names ws lower inst sep g tags) = .ok nss' ∧ nss.Perm nss' := by
    intro gs gs' hp
    induction hp with
    | nil => intro nss h; exact ⟨nss, h, .refl _⟩
    | cons g _ ih =>
      intro nss h
      rw [List.mapM_cons] at h ⊢
      cases hg : names ws lower inst sep g tags with
      | error e => rw [hg] at h; cases h
      | ok a =>
        rw [hg] at h
        rename_i l1 l2 _
        cases hr : l1.mapM (fun g => names ws lower inst sep g tags) with
        | error e => rw [hr] at h; cases h
        | ok b =>
          rw [hr] at h
          cases h
          obtain ⟨b', e1, e2⟩ := ih b hr
          exact ⟨a :: b', by rw [e1]; rfl, e2.cons a⟩
    | swap g1 g2 l =>
      intro nss h
      rw [List.mapM_cons, List.mapM_cons] at h ⊢
      cases h2 : names ws lower inst sep g2 tags with
      | error e => rw [h2] at h; cases h
      | ok a =>
        rw [h2] at h
        cases h1 : names ws lower inst sep g1 tags with
        | error e => rw [h1] at h; cases h
        | ok b =>
          rw [h1] at h
          cases hr : l.mapM (fun g => names ws lower inst sep g tags) with
          | error e => rw [hr] at h; cases h
          | ok c =>
            rw [hr] at h
            cases h
            exact ⟨b :: a :: c, rfl, .swap _ _ _⟩
    | trans _ _ ih1 ih2 =>
      intro nss h
      obtain ⟨n1, e1, p1⟩ := ih1 nss h
      obtain ⟨n2, e2, p2⟩ := ih2 n1 e1
      exact ⟨n2, e2, p1.trans p2⟩
  have h' : (∀ l, tags ≠ .many l) ∨ ∀ g ∈ gs', g.1 = .base := h.imp id (fun h g hg => h g (hp.mem_iff.2 hg))
  rw [C85_alone_partial ws lower inst sep count weighted tags gs h] at hN
  rw [C85_alone_partial ws lower inst sep count weighted tags gs' h']
  cases hr : gs.mapM (fun g => names ws lower inst sep g tags) with
  | error e => rw [hr] at hN; cases hN
  | ok nss =>
    rw [hr] at hN
    cases hN
    obtain ⟨nss', e1, e2⟩ := hm gs gs' hp nss hr
    refine ⟨networkCoInvestigator count weighted (fun ns => ns) nss', by rw [e1]; rfl, ?_, ?_⟩
    · intro u v
      rw [(C49_edges_nodes count weighted (fun ns => ns) nss').2.2.1, (C49_edges_nodes count weighted (fun ns => ns) nss).2.2.1]
      rw [perm_sum _ _ (e2.map _)]
    · intro n
      apply Bool.eq_iff_iff.2
      rw [(C49_edges_nodes count weighted (fun ns => ns) nss').2.2.2, (C49_edges_nodes count weighted (fun ns => ns) nss).2.2.2]
      simp only [e2.mem_iff]

/-! ## Examples -/

private def exWs : Char → Bool := fun c => c == ' '
private def exG (k : Kind) (n : String) : G := (k, [("Investigator".toList, .list [n.toList])])

/-- With a list of tags the order of the grants matters: it is the second of two NSF grants whose holder is linked to themselves. -/
theorem C85_order_matters :
    let run := fun gs => (network exWs id false ";".toList true true (.many []) gs).1.toOption.map
      (fun N => (N.edge? "Ann".toList "Ann".toList, N.edge? "Bo".toList "Bo".toList))
    run [exG .nsf "Ann", exG .nsf "Bo"] = some (none, some (some 1)) ∧ run [exG .nsf "Bo", exG .nsf "Ann"] = some (some (some 1), none) := by
  decide +kernel

/-- A grant of another kind is then also searched for the tags of the NSF grants before it. -/
theorem C85_leaks : (network exWs id false ";".toList true true (.many []) [exG .nsf "Ann", exG .base "Bo"]).1.toOption.map (fun N => N.hasNode "Bo".toList) = some true ∧
    names exWs id false ";".toList (exG .base "Bo") (.many []) = .ok [] := ⟨by decide +kernel, rfl⟩

example : (network exWs id false ";".toList true true .none [exG .nsf "Ann", exG .nsf "Bo"]).1.toOption.map
    (fun N => (N.hasNode "Bo".toList, N.edge? "Bo".toList "Bo".toList)) = some (true, none) := by decide +kernel
example : let g1 : G := (.nserc, [("Name-Nom".toList, .str "Ann; Bo".toList), ("Title".toList, .str "t".toList)])
    let g2 : G := (.nserc, [("Co-Name-X".toList, .str "Cy".toList), ("Name-Nom".toList, .str "Bo;Cy".toList)])
    (network exWs (fun s => s.map Char.toLower) false ";".toList true true (.many []) [g1, g2]).1.toOption.map
      (fun N => (N.edge? "Ann".toList "Bo".toList, N.edge? "Cy".toList "Cy".toList, N.edge? "Bo".toList "Cy".toList)) =
        some (some (some 1), some (some 1), some (some 2)) := by decide +kernel

end Verif.Props.GrantNetwork
