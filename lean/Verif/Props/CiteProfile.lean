import Verif.Lemmas.CiteProfile

/-! # C97: the citation profiles of `networkCoAuthor` -/
set_option autoImplicit false
set_option linter.unusedSimpArgs false
namespace Verif.Props.CiteProfile
open Verif.Py Verif.Py.Graph Verif.Model.CoNetworks Verif.Model.CiteProfile Verif.Spec.CiteProfile Verif.Lemmas.CiteProfile

variable {ρ ν ι K : Type} [DecidableEq ν] [DecidableEq K] [Inhabited ι]

/-- C97, exactly: the two attributes of an author list the citations, each once, with their texts and numbers; the number of a citation is `shared`: every
citation of a record counts once for each place of each author of the record whose first record is that of the author. The text is that of the first citation of them. -/
theorem C97_profile (weighted drop count : Bool) (isJournal : ρ → Bool) (authors : ρ → List ν) (info : ρ → ι) (cites : ρ → List (K × Str)) (recs : List ρ)
    (n : ν) (hn : ∃ r ∈ recs, n ∈ taken drop isJournal authors r) :
    ∃ l : List (K × Str × Nat),
      profileAttrs (collect weighted drop count isJournal authors info cites recs) n =
        (Str.join ['|'] (l.map (fun e => e.2.1)), Str.join ['|'] (l.map (fun e => showNat e.2.2))) ∧
      (l.map Prod.fst).Nodup ∧
      (∀ k c, (∃ t, (k, t, c) ∈ l) ↔ 0 < c ∧ c = shared (taken drop isJournal authors) cites recs n k) ∧
      ∀ e ∈ l, firstCitation (taken drop isJournal authors) cites recs n e.1 = some (e.1, e.2.1) := by
  obtain ⟨-, habs⟩ := collect_spec weighted drop count isJournal authors info cites recs
  generalize hau : taken drop isJournal authors = au at hn habs
  rw [fold_step] at habs
  have hfirst : (firstRecord au recs n).isSome := by
    unfold firstRecord
    rw [List.findIdx?_isSome, List.any_eq_true]
    obtain ⟨r, hr, h⟩ := hn
    exact ⟨r, hr, by simpa using h⟩
  obtain ⟨o, ho⟩ := Option.isSome_iff_exists.1 hfirst
  have hprof : profile (collect weighted drop count isJournal authors info cites recs) n = (into (events au cites recs.zipIdx) o).foldl addCite [] := by
    have h1 := congrFun (congrArg Prod.fst habs) n
    have h2 := congrFun (congrArg Prod.snd habs) o
    simp only [abs] at h1 h2
    rw [firstObj_events, ho] at h1
    unfold profile
    cases hx : (collect weighted drop count isJournal authors info cites recs).net.node? n with
    | none => rw [hx] at h1; simp at h1
    | some a =>
      rw [hx] at h1
      simp only [Option.map_some, Option.some.injEq] at h1
      dsimp only
      rw [h1, h2]
  obtain ⟨hwf, hget⟩ := fold_addCite (into (events au cites recs.zipIdx) o)
  rw [← hprof] at hwf hget
  refine ⟨profile (collect weighted drop count isJournal authors info cites recs) n, rfl, hwf, ?_, ?_⟩
  · intro k c
    have hex : (∃ t, (k, t, c) ∈ profile (collect weighted drop count isJournal authors info cites recs) n) ↔
        ∃ t, Dict.get? (profile (collect weighted drop count isJournal authors info cites recs) n) k = some (t, c) :=
      exists_congr (fun t => (Dict.get?_eq_some_iff hwf k (t, c)).symm)
    rw [hex, hget k, ← cited_into au cites recs n o ho k]
    have hpos : 0 < cited k (into (events au cites recs.zipIdx) o) ↔ ((into (events au cites recs.zipIdx) o).find? (fun c => decide (c.1 = k))).isSome := by
      unfold cited
      rw [List.countP_pos_iff, List.find?_isSome]
    cases hf : (into (events au cites recs.zipIdx) o).find? (fun c => decide (c.1 = k)) with
    | none =>
      rw [hf] at hpos
      simp only [Option.map_none, reduceCtorEq, exists_const, false_iff]
      rintro ⟨h1, rfl⟩
      simpa using hpos.1 h1
    | some d =>
      rw [hf] at hpos
      have hp := hpos.2 rfl
      simp only [Option.map_some, Option.some.injEq, Prod.mk.injEq]
      constructor
      · rintro ⟨t, -, rfl⟩
        exact ⟨hp, rfl⟩
      · rintro ⟨-, rfl⟩
        exact ⟨_, rfl, rfl⟩
  · intro e he
    have hg := (Dict.get?_eq_some_iff hwf e.1 e.2).2 he
    rw [hget] at hg
    rw [← find_into au cites recs n o ho]
    cases hf : (into (events au cites recs.zipIdx) o).find? (fun c => decide (c.1 = e.1)) with
    | none => rw [hf] at hg; simp at hg
    | some d =>
      rw [hf] at hg
      simp only [Option.map_some, Option.some.injEq] at hg
      have hd1 : d.1 = e.1 := by simpa using List.find?_some hf
      rw [← hd1, ← hg]

/-- C97, part: for an author with whom nobody else appears for the first time, and who is never second or later in a list of authors, the number of a citation is the
number of times it is in the author's records. Missing: all other authors, for whom the code disagrees (`C97_two_authors`). -/
theorem C97_profile_partial (weighted drop count : Bool) (isJournal : ρ → Bool) (authors : ρ → List ν) (info : ρ → ι) (cites : ρ → List (K × Str)) (recs : List ρ)
    (n : ν) (hn : ∃ r ∈ recs, n ∈ taken drop isJournal authors r)
    (halone : ∀ a, firstRecord (taken drop isJournal authors) recs a = firstRecord (taken drop isJournal authors) recs n → a = n)
    (hlead : ∀ r ∈ recs, n ∉ (taken drop isJournal authors r).tail) :
    ∃ l : List (K × Str × Nat),
      profileAttrs (collect weighted drop count isJournal authors info cites recs) n =
        (Str.join ['|'] (l.map (fun e => e.2.1)), Str.join ['|'] (l.map (fun e => showNat e.2.2))) ∧
      (l.map Prod.fst).Nodup ∧
      (∀ k c, (∃ t, (k, t, c) ∈ l) ↔ 0 < c ∧ c = fair (taken drop isJournal authors) cites recs n k) ∧
      ∀ e ∈ l, ∃ r ∈ recs, (e.1, e.2.1) ∈ cites r ∧ n ∈ taken drop isJournal authors r := by
  obtain ⟨l, h1, h2, h3, h4⟩ := C97_profile weighted drop count isJournal authors info cites recs n hn
  generalize taken drop isJournal authors = au at hn halone hlead h3 h4 ⊢
  have hsh : ∀ k, shared au cites recs n k = fair au cites recs n k := by
    intro k
    have hp : (fun a => decide (firstRecord au recs a = firstRecord au recs n)) = fun a => decide (a = n) := by
      funext a
      apply decide_eq_decide.2
      exact ⟨halone a, fun e => e ▸ rfl⟩
    unfold shared fair
    rw [hp]
    clear h1 h2 h3 h4 halone hn hp
    induction recs with
    | nil => rfl
    | cons r recs ih =>
      rw [List.map_cons, List.sum_cons, ih (fun r hr => hlead r (List.mem_cons_of_mem _ hr)), List.filter_cons]
      have hpl : places (fun a => decide (a = n)) (au r) = if n ∈ au r then 1 else 0 := by
        have ht := hlead r (by simp)
        unfold places
        cases hau : au r with
        | nil => simp
        | cons a rest =>
          rw [hau, List.tail_cons] at ht
          rw [List.zipIdx_cons, List.map_cons, List.sum_cons]
          have hz : ((rest.zipIdx (0 + 1)).map (fun x => if decide (x.1 = n) = true then x.2 + 1 else 0)).sum = 0 := by
            rw [Verif.Model.Networks.sum_eq_zero_iff]
            intro y hy
            obtain ⟨x, hx, rfl⟩ := List.mem_map.1 hy
            have hx' : x.1 ∈ rest := by
              have := List.mem_map_of_mem (f := Prod.fst) hx
              rwa [List.zipIdx_map_fst] at this
            have : x.1 ≠ n := fun e => ht (e ▸ hx')
            simp [this]
          rw [hz]
          by_cases e : a = n
          · simp [e]
          · have : ¬ (n = a ∨ n ∈ rest) := by rintro (h | h); exacts [e h.symm, ht h]
            simp [e, this]
      rw [hpl]
      by_cases h : n ∈ au r <;> simp [h]
  refine ⟨l, h1, h2, fun k c => by rw [h3, hsh], ?_⟩
  intro e he
  have := h4 e he
  unfold firstCitation at this
  obtain ⟨r, hr, hx⟩ := List.exists_of_findSome?_eq_some this
  split at hx
  · rename_i hany
    obtain ⟨a, ha, hf⟩ := List.any_eq_true.1 hany
    exact ⟨r, hr, List.mem_of_find?_eq_some hx, halone a (of_decide_eq_true hf) ▸ ha⟩
  · cases hx

/-- Witness: the first author of two records, the second with a new co-author, meets the hypotheses. -/
example : let au := taken false (fun _ => true) (fun r : Nat => if r = 0 then ["A"] else ["A", "B"])
    (∃ r ∈ [0, 1], "A" ∈ au r) ∧ (∀ a, firstRecord au [0, 1] a = firstRecord au [0, 1] "A" → a = "A") ∧ (∀ r ∈ [0, 1], "A" ∉ (au r).tail) := by
  refine ⟨by decide, fun a h => ?_, by decide⟩
  by_contra hn
  by_cases hb : a = "B" <;> simp [firstRecord, taken, List.findIdx?_cons, hn, hb] at h

example : profileAttrs (collect (ι := Unit) true false true (fun _ : Nat => true) (fun r => if r = 0 then ["A"] else ["A", "B"]) (fun _ => ())
      (fun r => if r = 0 then [(1, ['x']), (2, ['y'])] else [(1, ['z'])]) [0, 1]) "A" = ("x|y".toList, "2|1".toList) := by decide +kernel

/-- C97 (the code disagrees): take a record by `a` and `b` and another one by `a` alone. In the profile of `b` each citation of the first record counts three times, and
the citations of the second record, which `b` did not write, are there as well. -/
theorem C97_two_authors (weighted count : Bool) (isJournal : ρ → Bool) (authors : ρ → List ν) (info : ρ → ι) (cites : ρ → List (K × Str)) (r₀ r₁ : ρ) (a b : ν)
    (h0 : authors r₀ = [a, b]) (h1 : authors r₁ = [a]) (hab : a ≠ b) :
    ∃ l : List (K × Str × Nat),
      profileAttrs (collect weighted false count isJournal authors info cites [r₀, r₁]) b =
        (Str.join ['|'] (l.map (fun e => e.2.1)), Str.join ['|'] (l.map (fun e => showNat e.2.2))) ∧
      (l.map Prod.fst).Nodup ∧
      (∀ k c, (∃ t, (k, t, c) ∈ l) ↔ 0 < c ∧ c = 3 * cited k (cites r₀) + cited k (cites r₁)) ∧
      ∀ k, fair authors cites [r₀, r₁] b k = cited k (cites r₀) := by
  have ht : taken false isJournal authors = authors := by funext r; simp [taken]
  obtain ⟨l, g1, g2, g3, -⟩ := C97_profile weighted false count isJournal authors info cites [r₀, r₁] b ⟨r₀, by simp, by rw [ht, h0]; simp⟩
  refine ⟨l, g1, g2, fun k c => ?_, fun k => ?_⟩
  · have hs : shared authors cites [r₀, r₁] b k = 3 * cited k (cites r₀) + cited k (cites r₁) := by
      have fb : firstRecord authors [r₀, r₁] b = some 0 := by simp [firstRecord, List.findIdx?_cons, h0]
      have fa : firstRecord authors [r₀, r₁] a = some 0 := by simp [firstRecord, List.findIdx?_cons, h0]
      simp [shared, h0, h1, places, fa, fb]
    rw [g3, ht, hs]
  · have : b ≠ a := Ne.symm hab
    simp [fair, h0, h1, this]

/-- Witness: `B` has three times the citation `x`, and `y`, which only `A` cites. -/
example : profileAttrs (collect (ι := Unit) true false true (fun _ : Nat => true) (fun r => if r = 0 then ["A", "B"] else ["A"]) (fun _ => ())
      (fun r => if r = 0 then [(1, ['x'])] else [(2, ['y'])]) [0, 1]) "B" = ("x|y".toList, "3|1".toList) := by decide +kernel

/-- C97, the rest of the network is what it is without profiles: the same edges with the same weights, and the same nodes with the same counts and information. -/
theorem C97_network (weighted drop count : Bool) (isJournal : ρ → Bool) (authors : ρ → List ν) (info : ρ → ι) (cites : ρ → List (K × Str)) (recs : List ρ) :
    let g := networkCoAuthor weighted drop count isJournal authors info recs
    let s := collect weighted drop count isJournal authors info cites recs
    (∀ u v, s.net.edge? u v = g.edge? u v) ∧
    ∀ n, (s.net.node? n).map (fun a => (a.count, a.info.1)) = (g.node? n).map (fun a => (a.count, a.info)) := by
  intro g s
  have hg : g = (recs.map (fun r => (taken drop isJournal authors r).map (fun a => (a, info r)))).foldl (fun g l => coRecord count weighted g l) (Graph.empty false) := by
    show networkCoAuthor weighted drop count isJournal authors info recs = _
    unfold networkCoAuthor
    rw [List.foldl_map]
    congr 1
    funext g r
    unfold taken
    cases drop <;> cases isJournal r <;> rfl
  have hs : s.net = (recs.zipIdx.map (fun p => (taken drop isJournal authors p.1).map (fun a => (a, (info p.1, p.2))))).foldl (fun g l => coRecord count weighted g l) (Graph.empty false) := by
    rw [List.foldl_map]
    exact (collect_spec weighted drop count isJournal authors info cites recs).1
  obtain ⟨-, -, g3, g4⟩ := co_spec count weighted (recs.map (fun r => (taken drop isJournal authors r).map (fun a => (a, info r))))
  obtain ⟨-, -, s3, s4⟩ := co_spec count weighted (recs.zipIdx.map (fun p => (taken drop isJournal authors p.1).map (fun a => (a, (info p.1, p.2)))))
  have hlist : recs.map (fun r => (taken drop isJournal authors r).map (fun a => (a, info r))) =
      (recs.zipIdx.map (fun p => (taken drop isJournal authors p.1).map (fun a => (a, (info p.1, p.2))))).map (List.map (fun x => (x.1, x.2.1))) := by
    rw [List.map_map]
    conv_lhs => rw [← List.zipIdx_map_fst 0 recs, List.map_map]
    apply List.map_congr_left
    intro p _
    simp [List.map_map, Function.comp_def]
  rw [← hs] at s3 s4
  rw [← hg] at g3 g4
  generalize recs.zipIdx.map (fun p => (taken drop isJournal authors p.1).map (fun a => (a, (info p.1, p.2)))) = L at s3 s4 hlist
  rw [hlist] at g3 g4
  constructor
  · intro u v
    rw [s3, g3, List.map_map]
    congr 3
    funext l
    simp [Function.comp_def, List.map_map]
  · intro n
    rw [s4, g4, List.map_map, ← List.map_flatten, List.find?_map, Option.map_map, Option.map_map, Option.map_map]
    have : ((fun p : ν × ι => decide (p.1 = n)) ∘ fun x : ν × ι × Nat => (x.1, x.2.1)) = fun p => decide (p.1 = n) := rfl
    rw [this]
    cases L.flatten.find? (fun p => decide (p.1 = n)) with
    | none => rfl
    | some p =>
      simp only [Option.map_some, Function.comp_def, List.map_map]

end Verif.Props.CiteProfile
