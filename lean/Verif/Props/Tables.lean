import Verif.Lemmas.Tables

/-! # C26, C27 and C57: tables with one row per record or word -/
set_option autoImplicit false
set_option linter.unusedSectionVars false
set_option linter.unusedSimpArgs false
namespace Verif.Props
open Verif.Py Verif.Model.Tables

section MakeDict
variable {κ V ρ : Type} [DecidableEq κ]

theorem mem_keys_initDict (ex : Extras κ) (na gc : Bool) (fields : List κ) (k : κ) :
    k ∈ Dict.keys (initDict (V := V) ex na gc fields) ↔
      k ∈ fields ∨ (na ∧ k = ex.authors) ∨ (gc ∧ (k = ex.male ∨ k = ex.female ∨ k = ex.unknown)) := by
  unfold initDict
  have h0 := keys_foldl_set (fun _ => ([] : List V)) fields [] k
  simp only [Dict.keys, List.map_nil, List.not_mem_nil, or_false] at h0
  change k ∈ Dict.keys _ ↔ _ at h0
  cases na <;> cases gc <;> simp only [if_true, if_false, Bool.false_eq_true, Dict.mem_keys_set, h0, false_and, true_and, or_false]
  · tauto
  · tauto
  · tauto

theorem get?_initDict (ex : Extras κ) (na gc : Bool) (fields : List κ) (k : κ) (l : List V)
    (h : Dict.get? (initDict (V := V) ex na gc fields) k = some l) : l = [] := by
  have h0 := get?_foldl_set (fun _ => ([] : List V)) fields [] k
  simp only [Dict.get?] at h0
  unfold initDict at h
  cases na <;> cases gc <;> simp only [if_true, if_false, Bool.false_eq_true, Dict.get?_set, h0] at h <;>
    (repeat' split at h) <;> simp_all

theorem get?_initDict_mem (ex : Extras κ) (na gc : Bool) (fields : List κ) (k : κ)
    (h : k ∈ Dict.keys (initDict (V := V) ex na gc fields)) : Dict.get? (initDict (V := V) ex na gc fields) k = some [] := by
  obtain ⟨l, hl⟩ := Option.isSome_iff_exists.1 ((Dict.mem_keys_iff _ k).1 h)
  rw [hl, get?_initDict ex na gc fields k l hl]

theorem rowOf_mem (ex : Extras κ) (v : View κ V ρ) (na gc : Bool) (fields : List κ) (R : ρ) :
    ∀ p ∈ rowOf ex v na gc fields R, p.1 ∈ Dict.keys (initDict (V := V) ex na gc fields) := by
  intro p hp
  rw [mem_keys_initDict]
  simp only [rowOf, List.mem_append] at hp
  rcases hp with (hp | hp) | hp
  · cases na <;> simp at hp
    subst hp; simp
  · cases gc <;> simp at hp
    rcases hp with rfl | rfl | rfl <;> simp
  · left
    have : p.1 ∈ Dict.keys (subDict (v.get R) fields) := List.mem_map_of_mem hp
    rw [subDict, keys_foldl_set] at this
    simpa [Dict.keys] using this

theorem makeDict_general (ex : Extras κ) (v : View κ V ρ) (na gc : Bool) (fields : List κ) (recs : List ρ) :
    ∃ d, recs.foldlM (fun d R => appendRow d (rowOf ex v na gc fields R)) (initDict ex na gc fields) = some d ∧
      Dict.keys d = Dict.keys (initDict (V := V) ex na gc fields) ∧
      ∀ k ∈ Dict.keys d, Dict.get? d k = some (recs.flatMap (fun R => cells k (rowOf ex v na gc fields R))) := by
  obtain ⟨d, h1, h2, h3⟩ := fill_general (rowOf ex v na gc fields) recs (initDict ex na gc fields) (rowOf_mem ex v na gc fields)
  refine ⟨d, h1, h2, fun k hk => ?_⟩
  rw [h3, get?_initDict_mem ex na gc fields k (h2 ▸ hk)]
  simp

theorem flatMap_singleton' {α β : Type} (f : α → β) (l : List α) : l.flatMap (fun a => [f a]) = l.map f := by
  induction l <;> simp_all

/-- C26: unless a requested tag has the name of an added column, every column of `makeDict` has one cell per record, in the order of the
records: the value of the tag in that record, the number of its authors, or the count of one gender. -/
theorem C26_columns_partial (ex : Extras κ) (toTag toFull : κ → Option κ) (v : View κ V ρ) (only : Option (List κ)) (longNames na gc : Bool)
    (recs : List ρ) (fields : List κ) (hf : retrievedFields toTag toFull only longNames v.keys recs = some fields)
    (hna : na = true → ex.authors ∉ fields)
    (hgc : gc = true → ex.male ∉ fields ∧ ex.female ∉ fields ∧ ex.unknown ∉ fields)
    (hex : [ex.authors, ex.male, ex.female, ex.unknown].Nodup) :
    ∃ d, makeDict ex toTag toFull v only longNames na gc recs = some d ∧
      (∀ t ∈ fields, Dict.get? d t = some (recs.map (fun R => v.get R t))) ∧
      (na = true → Dict.get? d ex.authors = some (recs.map v.numAuthors)) ∧
      (gc = true → Dict.get? d ex.male = some (recs.map fun R => (v.genders R).1) ∧
        Dict.get? d ex.female = some (recs.map fun R => (v.genders R).2.1) ∧
        Dict.get? d ex.unknown = some (recs.map fun R => (v.genders R).2.2)) ∧
      (∀ k, k ∈ Dict.keys d ↔ k ∈ fields ∨ (na ∧ k = ex.authors) ∨ (gc ∧ (k = ex.male ∨ k = ex.female ∨ k = ex.unknown))) := by
  obtain ⟨d, h1, h2, h3⟩ := makeDict_general ex v na gc fields recs
  have hm := fun k => (h2 ▸ mem_keys_initDict (V := V) ex na gc fields k :)
  refine ⟨d, ?_, ?_, ?_, ?_, hm⟩
  · unfold makeDict
    rw [hf]
    exact h1
  · intro t ht
    rw [h3 t ((hm t).2 (Or.inl ht)), ← flatMap_singleton']
    congr 2
    funext R
    have a1 : na = true → ex.authors ≠ t := fun h e => hna h (e ▸ ht)
    have a2 : gc = true → ex.male ≠ t ∧ ex.female ≠ t ∧ ex.unknown ≠ t := fun h =>
      ⟨fun e => (hgc h).1 (e ▸ ht), fun e => (hgc h).2.1 (e ▸ ht), fun e => (hgc h).2.2 (e ▸ ht)⟩
    simp only [rowOf, cells_append, cells_subDict, ht, if_true]
    cases na <;> cases gc <;> simp_all [cells]
  · intro h
    subst h
    rw [h3 _ ((hm _).2 (by simp)), ← flatMap_singleton']
    congr 2
    funext R
    simp only [rowOf, cells_append, cells_subDict, hna rfl, if_false, if_true]
    simp only [List.nodup_cons, List.mem_cons, List.not_mem_nil, or_false, not_or] at hex
    cases gc
    · simp [cells]
    · simp [cells, hex.1.1, hex.1.2.1, hex.1.2.2, Ne.symm hex.1.1, Ne.symm hex.1.2.1, Ne.symm hex.1.2.2]
  · intro h
    subst h
    simp only [List.nodup_cons, List.mem_cons, List.not_mem_nil, or_false, not_or] at hex
    obtain ⟨⟨e1, e2, e3⟩, ⟨e4, e5⟩, e6, -⟩ := hex
    obtain ⟨g1, g2, g3⟩ := hgc rfl
    refine ⟨?_, ?_, ?_⟩ <;> rw [h3 _ ((hm _).2 (by simp)), ← flatMap_singleton'] <;> congr 2 <;> funext R <;>
      simp only [rowOf, cells_append, cells_subDict, g1, g2, g3, if_false, if_true] <;>
      cases na <;> simp [cells, e1, e2, e3, e4, e5, e6, Ne.symm e4, Ne.symm e5, Ne.symm e6]

theorem allTags_spec (keys : ρ → List κ) (hk : ∀ R, (keys R).Nodup) (recs : List ρ) :
    (allTags keys recs).Nodup ∧ ∀ t, t ∈ allTags keys recs ↔ ∃ R ∈ recs, t ∈ keys R := by
  have : ∀ (recs : List ρ) (acc : List κ), acc.Nodup →
      (recs.foldl (fun acc R => acc ++ (keys R).filter (fun t => t ∉ acc)) acc).Nodup ∧
      ∀ t, t ∈ recs.foldl (fun acc R => acc ++ (keys R).filter (fun t => t ∉ acc)) acc ↔ t ∈ acc ∨ ∃ R ∈ recs, t ∈ keys R := by
    intro recs
    induction recs with
    | nil => intro acc h; simpa using h
    | cons R rs ih =>
      intro acc h
      have h1 : (acc ++ (keys R).filter (fun t => t ∉ acc)).Nodup := by
        rw [List.nodup_append]
        refine ⟨h, (hk R).filter _, ?_⟩
        rintro a ha b hb rfl
        simp at hb
        exact hb.2 ha
      obtain ⟨i1, i2⟩ := ih _ h1
      refine ⟨i1, fun t => ?_⟩
      rw [List.foldl_cons, i2]
      simp only [List.mem_append, List.mem_filter, decide_eq_true_eq, List.mem_cons, exists_eq_or_imp]
      tauto
  have h := this recs [] List.nodup_nil
  simpa [allTags] using h

theorem mapM_option {α β : Type} (f : α → Option β) (l : List α) (r : List β) :
    l.mapM f = some r ↔ l.map f = r.map some := by
  induction l generalizing r with
  | nil => cases r <;> simp
  | cons a l ih =>
    rw [List.mapM_cons]
    cases hfa : f a with
    | none => cases r <;> simp [hfa]
    | some b =>
      cases hl : l.mapM f with
      | none =>
        cases r with
        | nil => simp
        | cons c r =>
          simp only [bind, Option.bind, pure, reduceCtorEq, List.map_cons, hfa, List.cons.injEq, Option.some.injEq, false_iff, not_and]
          intro _ hh
          have := (ih r).2 hh
          rw [hl] at this
          simp at this
      | some bs =>
        have := (ih bs).1 hl
        cases r with
        | nil => simp
        | cons c r =>
          simp only [bind, Option.bind, pure, Option.some.injEq, List.cons.injEq, List.map_cons, hfa, this]
          constructor
          · rintro ⟨rfl, rfl⟩; exact ⟨rfl, rfl⟩
          · rintro ⟨rfl, h⟩
            exact ⟨rfl, List.map_injective_iff.2 (fun _ _ h => Option.some.inj h) h⟩

/-- C26: the columns are the tags asked for, under their short names, or all tags of the records, each once; with `longNames` they carry long
names, and a tag without one is the only possible error. -/
theorem C26_fields (ex : Extras κ) (toTag toFull : κ → Option κ) (v : View κ V ρ) (hk : ∀ R, (v.keys R).Nodup) (only : Option (List κ))
    (longNames na gc : Bool) (recs : List ρ) :
    ∃ tags : List κ,
      (∀ l, only = some l → l ≠ [] → tags = l.map (fun t => (toTag t).getD t)) ∧
      (only = none ∨ only = some [] → tags.Nodup ∧ ∀ t, t ∈ tags ↔ ∃ R ∈ recs, t ∈ v.keys R) ∧
      (longNames = false → retrievedFields toTag toFull only longNames v.keys recs = some tags) ∧
      (longNames = true → ∀ fs, retrievedFields toTag toFull only longNames v.keys recs = some fs ↔ tags.map toFull = fs.map some) ∧
      (makeDict ex toTag toFull v only longNames na gc recs = none ↔ longNames = true ∧ ∃ t ∈ tags, toFull t = none) := by
  refine ⟨match only with
    | some (t :: ts) => (t :: ts).map (fun t => (toTag t).getD t)
    | _ => allTags v.keys recs, ?_, ?_, ?_, ?_, ?_⟩
  · rintro l rfl hl
    cases l with
    | nil => exact absurd rfl hl
    | cons a l => rfl
  · rintro (rfl | rfl) <;> exact allTags_spec v.keys hk recs
  · rintro rfl
    rfl
  · rintro rfl fs
    rw [← mapM_option]
    rfl
  · have hnone : ∀ l : List κ, l.mapM toFull = none ↔ ∃ t ∈ l, toFull t = none := by
      intro l
      induction l with
      | nil => simp
      | cons a l ih =>
        rw [List.mapM_cons]
        cases ha : toFull a with
        | none => simp [ha]
        | some b =>
          cases hl : l.mapM toFull with
          | none => simpa [ha] using ih.1 hl
          | some bs =>
            have : ¬ ∃ t ∈ l, toFull t = none := fun h => by rw [ih.2 h] at hl; simp at hl
            simpa [ha] using this
    unfold makeDict
    cases hr : retrievedFields toTag toFull only longNames v.keys recs with
    | none =>
      simp only [bind, Option.bind, true_iff]
      cases longNames with
      | false => simp [retrievedFields] at hr
      | true => exact ⟨rfl, (hnone _).1 hr⟩
    | some fs =>
      obtain ⟨d, hd, -⟩ := makeDict_general ex v na gc fs recs
      simp only [bind, Option.bind, hd, reduceCtorEq, false_iff, not_and]
      rintro rfl hex
      have h2 := (hnone _).2 hex
      exact absurd (h2.symm.trans hr) (by simp)

/-- C26 fails when a requested tag has the name of the author column: that column gets two cells per record. -/
theorem C26_clash_misaligned (ex : Extras κ) (toTag toFull : κ → Option κ) (v : View κ V ρ) (only : Option (List κ)) (longNames : Bool)
    (recs : List ρ) (fields : List κ) (hf : retrievedFields toTag toFull only longNames v.keys recs = some fields)
    (hc : ex.authors ∈ fields) :
    ∃ d l, makeDict ex toTag toFull v only longNames true false recs = some d ∧ Dict.get? d ex.authors = some l ∧
      l.length = 2 * recs.length := by
  obtain ⟨d, h1, h2, h3⟩ := makeDict_general ex v true false fields recs
  refine ⟨d, _, ?_, h3 _ ?_, ?_⟩
  · unfold makeDict
    rw [hf]
    exact h1
  · rw [h2, mem_keys_initDict]; simp
  · simp only [rowOf, cells_append, cells_subDict, hc, if_true]
    rw [List.length_flatMap]
    clear h1 h2 h3 hf
    induction recs with
    | nil => rfl
    | cons R rs ih =>
      simp only [List.map_cons, List.sum_cons, List.length_cons, ih]
      simp [cells]
      omega

/-- Witness: two records, one without the second tag. -/
example : makeDict (κ := Nat) (V := Option Nat) (ρ := List (Nat × Nat)) ⟨100, 101, 102, 103⟩ some some
    ⟨fun R => R.map Prod.fst, fun R t => (R.find? (·.1 == t)).map (·.2), fun _ => some 2, fun _ => (some 1, some 0, some 1)⟩
    none false true true [[(1, 10)], [(1, 11), (2, 20)]]
    = some [(1, [some 10, some 11]), (2, [none, some 20]), (100, [some 2, some 2]), (101, [some 1, some 1]), (102, [some 0, some 0]),
        (103, [some 1, some 1])] := by decide

end MakeDict

section NLP
variable {V ρ : Type}

theorem extraList_none : extraList none = [] := rfl

theorem extraList_nodup (l : List Str) (h : l.Nodup) : extraList (some l) = l.filter (fun c => c ∉ builtins) := by
  have : ∀ (bs l : List Str), l.Nodup → bs.foldl (fun l b => if b ∈ l then l.erase b else l) l = l.filter (fun c => c ∉ bs) := by
    intro bs
    induction bs with
    | nil => intro l _; simp
    | cons b bs ih =>
      intro l hl
      have he : (if b ∈ l then l.erase b else l) = l.filter (fun c => c ≠ b) := by
        split
        · rw [hl.erase_eq_filter]
          congr 1
          funext c
          by_cases h : c = b <;> simp [h]
        · rename_i hb
          rw [List.filter_eq_self.2]
          intro c hc
          simp only [ne_eq, decide_eq_true_eq]
          rintro rfl; exact hb hc
      rw [List.foldl_cons, he, ih _ (hl.filter _), List.filter_filter]
      congr 1
      funext c
      by_cases h1 : c = b <;> by_cases h2 : c ∈ bs <;> simp [h1, h2]
  exact this builtins l h

theorem mem_keys_nlpInit (cp : Bool) (ex : List Str) (k : Str) :
    k ∈ Dict.keys (nlpInit (V := V) cp ex) ↔ k ∈ builtins ∨ (cp ∧ k = "copyright".toList) ∨ k ∈ ex := by
  unfold nlpInit
  rw [keys_foldl_set (fun _ => ([] : List V))]
  have hb : ∀ k, k ∈ Dict.keys (builtins.map (fun b => (b, ([] : List V)))) ↔ k ∈ builtins := by
    intro k
    simp [Dict.keys]
  cases cp
  · simp only [if_false, Bool.false_eq_true, hb, false_and, false_or]
    tauto
  · simp only [if_true, Dict.mem_keys_set, hb, true_and]
    tauto

theorem get?_nlpInit (cp : Bool) (ex : List Str) (k : Str) (h : k ∈ Dict.keys (nlpInit (V := V) cp ex)) :
    Dict.get? (nlpInit (V := V) cp ex) k = some [] := by
  obtain ⟨l, hl⟩ := Option.isSome_iff_exists.1 ((Dict.mem_keys_iff _ k).1 h)
  rw [hl]
  unfold nlpInit at hl
  rw [get?_foldl_set (fun _ => ([] : List V))] at hl
  have hb : ∀ (bs : List Str) l, Dict.get? (bs.map (fun b => (b, ([] : List V)))) k = some l → l = [] := by
    intro bs
    induction bs with
    | nil => intro l h; simp [Dict.get?] at h
    | cons b bs ih =>
      intro l h
      simp only [List.map_cons, Dict.get?] at h
      split at h
      · exact (Option.some.inj h).symm
      · exact ih l h
  split at hl
  · exact hl.symm
  · cases cp
    · rw [hb _ l hl]
    · simp only [if_true, Dict.get?_set] at hl
      split at hl
      · exact hl.symm
      · rw [hb _ l hl]

theorem nlpRow_mem (ch : Chars) (o : NlpOpts) (v : NlpView V ρ) (ex : List Str) (R : ρ) :
    ∀ p ∈ nlpRow ch o v ex R, p.1 ∈ Dict.keys (nlpInit (V := V) o.copyright ex) := by
  intro p hp
  rw [mem_keys_nlpInit]
  simp only [nlpRow, List.mem_append] at hp
  rcases hp with (hp | hp) | hp
  · left
    simp only [List.mem_cons, List.not_mem_nil, or_false] at hp
    rcases hp with rfl | rfl | rfl | rfl | rfl <;> simp [builtins]
  · cases h : o.copyright <;> simp [h] at hp
    right; left
    exact ⟨rfl, by rw [hp]; rfl⟩
  · right; right
    obtain ⟨t, ht, rfl⟩ := List.mem_map.1 hp
    exact ht

theorem forNLP_general (ch : Chars) (o : NlpOpts) (v : NlpView V ρ) (extra : Option (List Str)) (recs : List ρ) :
    ∃ d, forNLP ch o v extra recs = some d ∧
      (∀ k, k ∈ Dict.keys d ↔ k ∈ builtins ∨ (o.copyright ∧ k = "copyright".toList) ∨ k ∈ extraList extra) ∧
      ∀ k ∈ Dict.keys d, Dict.get? d k = some (recs.flatMap (fun R => cells k (nlpRow ch o v (extraList extra) R))) := by
  obtain ⟨d, h1, h2, h3⟩ := fill_general (nlpRow ch o v (extraList extra)) recs (nlpInit o.copyright (extraList extra))
    (nlpRow_mem ch o v (extraList extra))
  refine ⟨d, h1, fun k => by rw [h2, mem_keys_nlpInit], fun k hk => ?_⟩
  rw [h3, get?_nlpInit _ _ k (h2 ▸ hk)]
  simp

theorem cells_extra (v : NlpView V ρ) (R : ρ) (ex : List Str) (k : Str) :
    cells k (ex.map (fun t => (t, extraCell v R t))) = List.replicate (ex.count k) (extraCell v R k) := by
  induction ex with
  | nil => rfl
  | cons a ex ih =>
    simp only [cells] at ih ⊢
    by_cases h : a = k
    · subst h
      simp [ih, List.replicate_succ]
    · simp [h, ih, List.count_cons]

/-- The cell of a record in a column of `forNLP`. -/
def nlpCell (ch : Chars) (o : NlpOpts) (v : NlpView V ρ) (R : ρ) (c : String) : V :=
  if c = "id" then v.id R else if c = "year" then v.year R else if c = "title" then v.title R
  else if c = "keywords" then v.str (Str.join ['|'] (v.keywords R)) else if c = "abstract" then v.str (abPrep ch o (v.abstract R)).1
  else if c = "copyright" ∧ o.copyright = true then v.str (abPrep ch o (v.abstract R)).2
  else match v.extra R c.toList with
    | .list l => v.str (Str.join ['|'] l)
    | .missing => v.str []
    | .val x => x

theorem cells_nlpRow (ch : Chars) (o : NlpOpts) (v : NlpView V ρ) (ex : List Str) (R : ρ) (c : String) :
    cells c.toList (nlpRow ch o v ex R) =
      (if c = "id" then [v.id R] else []) ++ (if c = "year" then [v.year R] else []) ++ (if c = "title" then [v.title R] else []) ++
      (if c = "keywords" then [v.str (Str.join ['|'] (v.keywords R))] else []) ++
      (if c = "abstract" then [v.str (abPrep ch o (v.abstract R)).1] else []) ++
      (if c = "copyright" ∧ o.copyright = true then [v.str (abPrep ch o (v.abstract R)).2] else []) ++
      List.replicate (ex.count c.toList) (extraCell v R c.toList) := by
  have hs : ∀ x : String, (x.toList = c.toList) = (c = x) := fun x => propext ⟨fun h => (String.toList_inj.1 h).symm, fun h => h ▸ rfl⟩
  unfold nlpRow
  simp only [cells_append, cells_extra]
  congr 1
  have h5 : ∀ (a b : Str × V) (l : List (Str × V)), cells c.toList (a :: b :: l) = cells c.toList [a] ++ cells c.toList (b :: l) :=
    fun a b l => cells_append _ [a] (b :: l)
  have h1 : ∀ (x : String) (y : V), cells c.toList [(x.toList, y)] = if c = x then [y] else [] := by
    intro x y
    by_cases hx : c = x
    · subst hx; simp [cells]
    · have : ¬ x.toList = c.toList := by rw [hs]; exact hx
      simp only [cells, List.filterMap_cons, this, if_false, List.filterMap_nil, if_neg hx]
  rw [h5, h5, h5, h5, h1, h1, h1, h1, h1]
  congr 1
  · simp
  · cases o.copyright
    · simp [cells]
    · simp only [if_true, and_true, h1]

/-- C27: when no extra column is named twice, or named as the copyright column is, every column of `forNLP` has one cell per record, in the
order of the records, with the stated content. -/
theorem C27_columns_partial (ch : Chars) (o : NlpOpts) (v : NlpView V ρ) (extra : List String) (hn : extra.Nodup)
    (hc : o.copyright = true → "copyright" ∉ extra) (recs : List ρ) :
    ∃ d, forNLP ch o v (some (extra.map String.toList)) recs = some d ∧
      (∀ c : String, c.toList ∈ Dict.keys d ↔
        c ∈ ["id", "year", "title", "keywords", "abstract"] ∨ (c = "copyright" ∧ o.copyright = true) ∨ c ∈ extra) ∧
      ∀ c : String, c.toList ∈ Dict.keys d → Dict.get? d c.toList = some (recs.map (fun R => nlpCell ch o v R c)) := by
  obtain ⟨d, h1, h2, h3⟩ := forNLP_general ch o v (some (extra.map String.toList)) recs
  have hn' : (extra.map String.toList).Nodup := List.Pairwise.map _ (fun a b h e => h (String.toList_inj.1 e)) hn
  have hmem : ∀ (c : String) (l : List String), c.toList ∈ l.map String.toList ↔ c ∈ l := by
    intro c l
    simp only [List.mem_map]
    exact ⟨fun ⟨x, hx, e⟩ => String.toList_inj.1 e ▸ hx, fun h => ⟨c, h, rfl⟩⟩
  have hb : builtins = ["id", "year", "title", "keywords", "abstract"].map String.toList := rfl
  have hkeys : ∀ c : String, c.toList ∈ Dict.keys d ↔
        c ∈ ["id", "year", "title", "keywords", "abstract"] ∨ (c = "copyright" ∧ o.copyright = true) ∨ c ∈ extra := by
    intro c
    rw [h2, extraList_nodup _ hn', List.mem_filter, decide_eq_true_eq, hmem, hb, hmem, String.toList_inj]
    tauto
  refine ⟨d, h1, hkeys, ?_⟩
  intro c hck
  rw [h3 _ hck, ← flatMap_singleton' (fun R => nlpCell ch o v R c)]
  congr 2
  funext R
  rw [cells_nlpRow, extraList_nodup _ hn']
  have hcount : ((extra.map String.toList).filter (fun c => c ∉ builtins)).count c.toList =
      if c ∈ extra ∧ c ∉ ["id", "year", "title", "keywords", "abstract"] then 1 else 0 := by
    rw [List.Nodup.count (hn'.filter _)]
    simp only [List.mem_filter, hmem, decide_eq_true_eq, hb]
  rw [hcount]
  have hk := (hkeys c).1 hck
  unfold nlpCell
  by_cases c1 : c = "id"
  · subst c1; simp
  by_cases c2 : c = "year"
  · subst c2; simp
  by_cases c3 : c = "title"
  · subst c3; simp
  by_cases c4 : c = "keywords"
  · subst c4; simp
  by_cases c5 : c = "abstract"
  · subst c5; simp
  by_cases c6 : c = "copyright" ∧ o.copyright = true
  · have := hc c6.2
    obtain ⟨rfl, h⟩ := c6
    simp [this, h]
  have hce : c ∈ extra := by
    simp only [List.mem_cons, c1, c2, c3, c4, c5, List.not_mem_nil, or_false, false_or] at hk
    exact hk.resolve_left c6
  simp only [c1, c2, c3, c4, c5, c6, hce, List.mem_cons, List.not_mem_nil, or_false, not_false_eq_true, and_true, if_true, if_false]
  simp only [List.nil_append, extraCell]
  cases v.extra R c.toList <;> simp

/-- C27 fails when an extra column is named several times: that column gets as many cells per record. -/
theorem C27_duplicates_misaligned (ch : Chars) (o : NlpOpts) (v : NlpView V ρ) (extra : List Str) (c : String)
    (hc : c ∉ ["id", "year", "title", "keywords", "abstract", "copyright"]) (hm : c.toList ∈ extra) (recs : List ρ) :
    ∃ d l, forNLP ch o v (some extra) recs = some d ∧ Dict.get? d c.toList = some l ∧ l.length = extra.count c.toList * recs.length := by
  obtain ⟨d, h1, h2, h3⟩ := forNLP_general ch o v (some extra) recs
  have hcount : ∀ (bs l : List Str), c.toList ∉ bs →
      (bs.foldl (fun l b => if b ∈ l then l.erase b else l) l).count c.toList = l.count c.toList := by
    intro bs
    induction bs with
    | nil => intros; rfl
    | cons b bs ih =>
      intro l hb
      rw [List.foldl_cons, ih _ (fun h => hb (List.mem_cons_of_mem _ h))]
      split
      · exact List.count_erase_of_ne (fun e => hb (by rw [← e]; simp))
      · rfl
  have hb : c.toList ∉ builtins := by
    intro h
    have : ∃ x ∈ ["id", "year", "title", "keywords", "abstract"], x.toList = c.toList := by
      simpa [builtins, eq_comm] using h
    obtain ⟨x, hx, e⟩ := this
    rw [String.toList_inj] at e
    subst e
    apply hc
    simp only [List.mem_cons, List.not_mem_nil, or_false] at hx ⊢
    tauto
  have hcnt : (extraList (some extra)).count c.toList = extra.count c.toList := hcount _ _ hb
  have hmem : c.toList ∈ extraList (some extra) := by
    rw [← List.count_pos_iff, hcnt]
    exact List.count_pos_iff.2 hm
  refine ⟨d, _, h1, h3 _ ((h2 _).2 (Or.inr (Or.inr hmem))), ?_⟩
  rw [List.length_flatMap]
  simp only [cells_nlpRow, hcnt]
  simp only [List.mem_cons, List.not_mem_nil, or_false, not_or] at hc
  simp only [hc, if_false, false_and, List.nil_append, List.length_replicate]
  clear h1 h2 h3
  induction recs with
  | nil => rfl
  | cons R rs ih => simp only [List.map_cons, List.sum_cons, ih, List.length_cons, Nat.mul_succ]; omega

/-- C27: the characters of an abstract: whatever else happens, digits and characters which are not part of words are gone if that was asked
for, except spaces. -/
theorem C27_abstract_characters (ch : Chars) (o : NlpOpts) (hst : o.stemmer = none) (ab : Str) :
    ∀ c ∈ (abPrep ch o ab).1, c = ' ' ∨ ((o.numbers = true → ch.digit c = false) ∧ (o.nonWords = true → ch.word c = true)) := by
  intro c hc
  unfold abPrep at hc
  simp only [hst, dropOther, List.mem_filter] at hc
  have h := hc.2
  simp only [Bool.or_eq_true, beq_iff_eq, Bool.not_eq_true', Bool.or_eq_false_iff, Bool.and_eq_false_iff] at h
  rcases h with h | ⟨h1, h2⟩
  · exact Or.inl h
  · right
    constructor
    · intro hn
      rcases h1 with h1 | h1
      · rw [hn] at h1; simp at h1
      · exact h1
    · intro hn
      rcases h2 with h2 | h2
      · rw [hn] at h2; simp at h2
      · simpa using h2

/-- The drop list misses a word which directly follows another occurrence of it. -/
theorem C27_dropList_misses_repeats :
    (abPrep ⟨(· == ' '), Char.isAlphanum, Char.isDigit, id⟩ ⟨some ["the".toList], false, false, false, false, false, none⟩
      "the the cat".toList).1 = "the cat".toList := by decide +kernel

/-- Witness. -/
example : forNLP (V := Str) (ρ := Nat) ⟨(· == ' '), Char.isAlphanum, Char.isDigit, id⟩ ⟨none, false, true, true, true, true, none⟩
    ⟨id, fun _ => ['i'], fun _ => ['y'], fun _ => ['t'], fun _ => [['k'], ['l']], fun _ => "An eye, 2. (c) 2010 X".toList,
      fun _ _ => .list [['p'], ['q']]⟩ (some ["id".toList, "p".toList]) [0]
    = some [("id".toList, [['i']]), ("year".toList, [['y']]), ("title".toList, [['t']]), ("keywords".toList, ["k|l".toList]),
        ("abstract".toList, ["An eye ".toList]), ("copyright".toList, [" (c) 2010 X".toList]), ("p".toList, ["p|q".toList])] := by
  decide +kernel

end NLP

section Burst
variable {Y ρ : Type}

/-- C57: the rows of `forBurst` are, record by record, the year of the record with each word of its text; records without a year or the tag
have no rows; both columns have the same length. -/
theorem C57_rows (ch : Chars) (o : NlpOpts) (v : BurstView Y ρ) (recs : List ρ) :
    (forBurst ch o v recs).1.length = (forBurst ch o v recs).2.length ∧
    (forBurst ch o v recs).1.zip (forBurst ch o v recs).2 =
      recs.flatMap (fun R => match v.year R, v.text R with
        | some y, some t => (burstPrep ch o t).map (fun w => (y, w))
        | _, _ => []) := by
  have hin : ∀ (y : Y) (ws : List Str) (acc : List Y × List Str),
      ws.foldl (fun a tok => (a.1 ++ [y], a.2 ++ [tok])) acc = (acc.1 ++ ws.map (fun _ => y), acc.2 ++ ws) := by
    intro y ws
    induction ws with
    | nil => intro acc; simp
    | cons w ws ih => intro acc; rw [List.foldl_cons, ih]; simp
  have : ∀ (recs : List ρ) (acc : List Y × List Str), acc.1.length = acc.2.length →
      (recs.foldl (burstStep ch o v) acc).1.length = (recs.foldl (burstStep ch o v) acc).2.length ∧
      (recs.foldl (burstStep ch o v) acc).1.zip (recs.foldl (burstStep ch o v) acc).2 = acc.1.zip acc.2 ++
        recs.flatMap (fun R => match v.year R, v.text R with
          | some y, some t => (burstPrep ch o t).map (fun w => (y, w))
          | _, _ => []) := by
    intro recs
    induction recs with
    | nil => intro acc h; simpa using h
    | cons R rs ih =>
      intro acc h
      rw [List.foldl_cons]
      cases hy : v.year R with
      | none =>
        have e : burstStep ch o v acc R = acc := by simp [burstStep, hy]
        rw [e]
        obtain ⟨i1, i2⟩ := ih acc h
        exact ⟨i1, by rw [i2]; simp [hy]⟩
      | some y =>
        cases ht : v.text R with
        | none =>
          have e : burstStep ch o v acc R = acc := by simp [burstStep, hy, ht]
          rw [e]
          obtain ⟨i1, i2⟩ := ih acc h
          exact ⟨i1, by rw [i2]; simp [hy, ht]⟩
        | some t =>
          have e : burstStep ch o v acc R =
              (acc.1 ++ (burstPrep ch o t).map (fun _ => y), acc.2 ++ burstPrep ch o t) := by
            simp only [burstStep, hy, ht]
            exact hin y _ acc
          rw [e]
          obtain ⟨i1, i2⟩ := ih (acc.1 ++ (burstPrep ch o t).map (fun _ => y), acc.2 ++ burstPrep ch o t) (by simp [h])
          refine ⟨i1, ?_⟩
          rw [i2, List.zip_append h]
          simp only [List.flatMap_cons, hy, ht, List.append_assoc]
          congr 2
          generalize burstPrep ch o t = ws
          induction ws with
          | nil => rfl
          | cons w ws ih =>
            show (y, w) :: (ws.map fun _ => y).zip ws = (y, w) :: _
            rw [ih]
  have h := this recs ([], []) rfl
  exact ⟨h.1, by rw [forBurst, h.2]; rfl⟩

/-- C57: without a stemmer the words contain no space, and none of the characters which were to be removed. -/
theorem C57_words (ch : Chars) (o : NlpOpts) (hst : o.stemmer = none) (s : Str) :
    ∀ w ∈ burstPrep ch o s, ∀ c ∈ w, c ≠ ' ' ∧ (o.numbers = true → ch.digit c = false) ∧ (o.nonWords = true → ch.word c = true) := by
  intro w hw c hc
  unfold burstPrep at hw
  simp only [hst] at hw
  have h1 : c ≠ ' ' := by
    rintro rfl
    exact Str.split_char_pieces ' ' _ w hw hc
  refine ⟨h1, ?_⟩
  have hj : ∀ (l : List Str), w ∈ l → c ∈ Str.join [' '] l := by
    intro l
    induction l with
    | nil => simp
    | cons a l ih =>
      intro h
      rcases List.mem_cons.1 h with rfl | h
      · cases l with
        | nil => simpa [Str.join] using hc
        | cons b l => rw [Str.join_cons _ _ _ (by simp)]; simp [hc]
      · rw [Str.join_cons _ _ _ (List.ne_nil_of_mem h)]
        simp [ih h]
  have hmem := hj _ hw
  rw [Str.join_split _ _ (by simp)] at hmem
  simp only [dropOther, List.mem_filter] at hmem
  have h := hmem.2
  simp only [Bool.or_eq_true, beq_iff_eq, Bool.not_eq_true', Bool.or_eq_false_iff, Bool.and_eq_false_iff, h1, false_or] at h
  obtain ⟨h2, h3⟩ := h
  constructor
  · intro hn
    rcases h2 with h2 | h2
    · rw [hn] at h2; simp at h2
    · exact h2
  · intro hn
    rcases h3 with h3 | h3
    · rw [hn] at h3; simp at h3
    · simpa using h3

/-- C57: with nothing to remove, the words of a text joined by spaces are the text. -/
theorem C57_words_lossless (ch : Chars) (s : Str) :
    Str.join [' '] (burstPrep ch ⟨none, false, false, false, false, false, none⟩ s) = s := by
  unfold burstPrep
  simp only [dropOther, Bool.false_and, Bool.or_false, Bool.not_false, Bool.or_true, if_false, Bool.false_eq_true]
  rw [Str.join_split _ _ (by simp), List.filter_eq_self.2 (fun _ _ => rfl)]

/-- Witness. -/
example : forBurst (Y := Nat) (ρ := Nat) ⟨(· == ' '), Char.isAlphanum, Char.isDigit, id⟩ ⟨some ["a".toList], false, true, true, true, false, none⟩
    ⟨fun r => if r = 2 then none else some (r + 2000), fun _ => some "see  a cat4.".toList⟩ [1, 2, 3]
    = ([2001, 2001, 2003, 2003], ["see".toList, "cat".toList, "see".toList, "cat".toList]) := by decide +kernel

end Burst

end Verif.Props
