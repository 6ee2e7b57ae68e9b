import Verif.Lemmas.Scopus

/-!
# Lemmas for the exact condition of C33
-/
set_option autoImplicit false
set_option linter.unusedSimpArgs false
namespace Verif.Lemmas.ScopusExact
open Verif.Py Verif.Model.Scopus Verif.Spec.Scopus Verif.Lemmas.Scopus

theorem lead_pair (s : Str) : lead ('"' :: '"' :: s) = lead s + 2 := by simp [lead]

theorem firstQuoting_other (c : Char) (s : Str) (h : c ≠ '"') : firstQuoting (c :: s) = false := by
  unfold firstQuoting
  split
  · rename_i e; exact absurd (List.cons.inj e).1 h
  · rename_i e; exact absurd (List.cons.inj e).1 h
  · rfl

theorem innerQuoting_other (c : Char) (s : Str) (h : c ≠ '"') : innerQuoting (c :: s) = false := by
  unfold innerQuoting
  split
  · rename_i e; exact absurd (List.cons.inj e).1 h
  · rename_i e; exact absurd (List.cons.inj e).1 h
  · rfl

theorem not_nl (s : Str) : s ++ ['"'] ≠ ['\n'] := by
  intro e
  have := congrArg List.getLast? e
  simp at this

theorem firstQuoting_whole_iff : ∀ v : Str, firstQuoting ('"' :: v ++ ['"']) = true ↔ lead v % 2 = 0
  | [] => by decide
  | [c] => by
    by_cases h : c = '"'
    · subst h; decide
    · show firstQuoting ('"' :: c :: ['"']) = true ↔ _
      rw [firstQuoting]
      · simp [lead, h]
      · exact h
  | c :: d :: s => by
    by_cases h : c = '"'
    · subst h
      by_cases h2 : d = '"'
      · subst h2
        show firstQuoting ('"' :: '"' :: ('"' :: s ++ ['"'])) = true ↔ _
        rw [firstQuoting, lead_pair, Nat.add_mod_right, ← firstQuoting_whole_iff s]
        have := not_nl ('"' :: s)
        simp
      · show firstQuoting ('"' :: '"' :: (d :: s ++ ['"'])) = true ↔ _
        rw [firstQuoting, List.cons_append, firstQuoting_other d _ h2]
        have := not_nl (d :: s)
        simp [lead, h2]
    · show firstQuoting ('"' :: c :: (d :: s ++ ['"'])) = true ↔ _
      rw [firstQuoting]
      · simp [lead, h]
      · exact h

theorem firstQuoting_last_iff : ∀ v : Str, firstQuoting (v ++ ['"']) = false ↔ lead v % 2 = 0
  | [] => by decide
  | [c] => by
    by_cases h : c = '"'
    · subst h; decide
    · rw [List.singleton_append, firstQuoting_other c _ h]
      simp [lead, h]
  | c :: d :: s => by
    by_cases h : c = '"'
    · subst h
      by_cases h2 : d = '"'
      · subst h2
        show firstQuoting ('"' :: '"' :: (s ++ ['"'])) = false ↔ _
        rw [firstQuoting, lead_pair, Nat.add_mod_right, ← firstQuoting_last_iff s]
        have := not_nl s
        simp [this]
      · show firstQuoting ('"' :: d :: (s ++ ['"'])) = false ↔ _
        rw [firstQuoting]
        · simp [lead, h2]
        · exact h2
    · rw [List.cons_append, firstQuoting_other c _ h]
      simp [lead, h]

theorem innerQuoting_spec : ∀ v : Str, innerQuoting v = true ↔ lead v % 2 = 1 ∧ ∃ c, firstOther v = some c ∧ c ≠ '|' ∧ c ≠ '$'
  | [] => by decide
  | [c] => by
    by_cases h : c = '"'
    · subst h; simp [innerQuoting, firstOther]
    · rw [innerQuoting_other c _ h]
      simp [lead, h]
  | c :: d :: s => by
    by_cases h : c = '"'
    · subst h
      by_cases h2 : d = '"'
      · subst h2
        rw [innerQuoting, innerQuoting_spec s, lead_pair, Nat.add_mod_right]
        simp [firstOther]
      · rw [innerQuoting]
        · simp [lead, h2, firstOther]
        · exact h2
    · rw [innerQuoting_other c _ h]
      simp [lead, h]

theorem innerQuoting_first (p : Str) : innerQuoting ('"' :: p) = true ↔ lead p % 2 = 0 ∧ ∃ c, firstOther p = some c ∧ c ≠ '|' ∧ c ≠ '$' := by
  rw [innerQuoting_spec]
  have : (lead ('"' :: p) % 2 = 1) ↔ lead p % 2 = 0 := by simp [lead]; omega
  rw [this]
  simp [firstOther]

theorem gatherBack_length (acc : Str) (ps : List Str) (val : Str) (ps' : List Str) (h : gatherBack acc ps = some (val, ps')) :
    acc.length ≤ val.length := by
  induction ps generalizing acc with
  | nil => simp [gatherBack] at h
  | cons w ps ih =>
    rw [gatherBack] at h
    split at h
    · obtain ⟨e, _⟩ := Prod.mk.inj (Option.some.inj h)
      rw [← e]; simp
    · have := ih _ h
      simp at this; omega

/-- Passing over pieces that do not open a cell. -/
theorem gatherBack_pass (acc : Str) (mid ps : List Str) (hm : ∀ p ∈ mid, innerQuoting p = false) :
    gatherBack acc (mid.reverse ++ ps) = gatherBack (mid.flatMap (fun p => ',' :: p) ++ acc) ps := by
  induction mid using List.reverseRecOn generalizing acc with
  | nil => simp
  | append_singleton mid m ih =>
    rw [List.reverse_append, List.reverse_singleton, List.singleton_append, List.cons_append, gatherBack,
      if_neg (by rw [hm m (by simp)]; simp), ih _ (fun p hp => hm p (by simp [hp]))]
    simp

/-- Stopping at a piece that opens a cell. -/
theorem gatherBack_stop (acc : Str) (mid ps : List Str) (hm : ∃ p ∈ mid, innerQuoting p = true) :
    ∃ val ps', gatherBack acc (mid.reverse ++ ps) = some (val, ps') ∧ val.length < (mid.flatMap (fun p => ',' :: p) ++ acc).length := by
  induction mid using List.reverseRecOn generalizing acc with
  | nil => simp at hm
  | append_singleton mid m ih =>
    rw [List.reverse_append, List.reverse_singleton, List.singleton_append, List.cons_append, gatherBack]
    by_cases hq : innerQuoting m = true
    · rw [if_pos hq]
      refine ⟨_, _, rfl, ?_⟩
      simp; omega
    · rw [if_neg hq]
      obtain ⟨val, ps', h1, h2⟩ := ih (',' :: m ++ acc) (by
        obtain ⟨p, hp, hpq⟩ := hm
        rcases List.mem_append.1 hp with hp | hp
        · exact ⟨p, hp, hpq⟩
        · simp only [List.mem_singleton] at hp; subst hp; exact absurd hpq hq)
      refine ⟨val, ps', h1, ?_⟩
      simp at h2 ⊢; omega

/-- The two ways of cutting a text at its commas agree. -/
theorem pieces_unique (v : Str) (l : List Str) (hne : l ≠ []) (hv : v = Str.join [','] l) (hl : ∀ p ∈ l, ',' ∉ p) : Str.split [','] v = l := by
  rw [hv]; exact Str.split_join_char ',' l hne hl

theorem value_pieces (v p q : Str) (mid : List Str) (e1 : Str.split [','] v = p :: mid ++ [q]) :
    v = p ++ (mid.flatMap (fun r => ',' :: r) ++ (',' :: q)) := by
  have hj := Str.join_split [','] v (by simp)
  rw [← hj, e1, List.cons_append, join_comma]
  simp

/-- What the reader makes of the cell written for a value: the value if it is readable, and otherwise another one or nothing. -/
theorem parse_quoted (v k : Str) (hs ps : List Str) (d : Fields) :
    (Readable v ∧ parseGo (k :: hs) ((Str.split [','] ('"' :: v ++ ['"'])).reverse ++ ps) d = parseGo hs ps (Dict.set d k v)) ∨
    (¬ Readable v ∧ (parseGo (k :: hs) ((Str.split [','] ('"' :: v ++ ['"'])).reverse ++ ps) d = none ∨
      ∃ w ps', w ≠ v ∧ parseGo (k :: hs) ((Str.split [','] ('"' :: v ++ ['"'])).reverse ++ ps) d = parseGo hs ps' (Dict.set d k w))) := by
  rcases split_quoted v with ⟨p, e1, e2, e3⟩ | ⟨p, mid, q, e1, e2⟩
  · subst e2
    have hnc : ',' ∉ p := Str.split_char_pieces ',' p p (by rw [e1]; simp)
    have hR : Readable p ↔ lead p % 2 = 0 := by
      constructor
      · rintro (h | ⟨f, m, l, h, hl, _⟩)
        · exact h.2
        · have := pieces_unique p _ (by simp) h hl
          rw [e1] at this
          have := congrArg List.length this
          simp at this
      · intro h; exact Or.inl ⟨hnc, h⟩
    rw [e3, List.reverse_singleton, List.singleton_append, parseGo, if_neg (by simp), if_pos List.getLast?_concat]
    by_cases hl : lead p % 2 = 0
    · left
      refine ⟨hR.2 hl, ?_⟩
      rw [if_pos ((firstQuoting_whole_iff p).2 hl)]
      simp
    · right
      refine ⟨fun h => hl (hR.1 h), ?_⟩
      rw [if_neg (fun h => hl ((firstQuoting_whole_iff p).1 h))]
      cases hg : gatherBack (',' :: ('"' :: p ++ ['"']).dropLast) ps with
      | none => left; rfl
      | some x =>
        obtain ⟨val, ps'⟩ := x
        right
        refine ⟨val, ps', ?_, rfl⟩
        have := gatherBack_length _ _ _ _ hg
        rw [List.dropLast_concat] at this
        rintro rfl
        simp at this
        omega
  · have hv := value_pieces v p q mid e1
    have hc : ',' ∈ v := by rw [hv]; simp
    have hpl : ∀ r ∈ p :: mid ++ [q], ',' ∉ r := fun r hr => Str.split_char_pieces ',' v r (by rw [e1]; exact hr)
    have hR : Readable v ↔ (lead p % 2 = 0 ∧ ∃ c, firstOther p = some c ∧ c ≠ '|' ∧ c ≠ '$') ∧ lead q % 2 = 0 ∧
        ∀ m ∈ mid, innerQuoting m = false := by
      have hin : ∀ m, innerQuoting m = false ↔ (lead m % 2 = 1 → firstOther m = none ∨ firstOther m = some '|' ∨ firstOther m = some '$') := by
        intro m
        rw [← Bool.not_eq_true, innerQuoting_spec]
        cases firstOther m with
        | none => simp
        | some c =>
          simp only [Option.some.injEq, reduceCtorEq, false_or, exists_eq_left']
          constructor
          · intro h h1
            by_cases ha : c = '|'
            · exact Or.inl ha
            · by_cases hb : c = '$'
              · exact Or.inr hb
              · exact absurd ⟨h1, ha, hb⟩ h
          · rintro h ⟨h1, h2, h3⟩
            rcases h h1 with h | h
            · exact h2 h
            · exact h3 h
      constructor
      · rintro (h | ⟨f, m, l, h, hl, h1, h2, h3, h4⟩)
        · exact absurd hc h.1
        · have := pieces_unique v _ (by simp) h hl
          rw [e1] at this
          rw [List.cons_append, List.cons_append] at this
          injection this with t1 t2
          obtain ⟨t3, t4⟩ := List.append_inj' t2 rfl
          have t5 : q = l := by simpa using t4
          subst t1; subst t3; subst t5
          exact ⟨⟨h1, h2⟩, h3, fun x hx => (hin x).2 (h4 x hx)⟩
      · rintro ⟨⟨h1, h2⟩, h3, h4⟩
        refine Or.inr ⟨p, mid, q, ?_, hpl, h1, h2, h3, fun x hx => (hin x).1 (h4 x hx)⟩
        rw [← e1]; exact (Str.join_split [','] v (by simp)).symm
    rw [e2]
    simp only [List.reverse_append, List.reverse_cons, List.reverse_nil, List.nil_append, List.cons_append, List.append_assoc]
    rw [parseGo, if_neg (by simp), if_pos (by simp), List.dropLast_concat]
    by_cases hq : lead q % 2 = 0
    · rw [if_neg (by rw [(firstQuoting_last_iff q).2 hq]; simp)]
      by_cases hm : ∀ m ∈ mid, innerQuoting m = false
      · rw [gatherBack_pass _ mid _ hm, gatherBack]
        by_cases hp : innerQuoting ('"' :: p) = true
        · left
          refine ⟨hR.2 ⟨(innerQuoting_first p).1 hp, hq, hm⟩, ?_⟩
          rw [if_pos hp, List.drop_succ_cons, List.drop_zero, ← hv]
        · right
          refine ⟨fun h => hp ((innerQuoting_first p).2 (hR.1 h).1), ?_⟩
          rw [if_neg hp]
          cases hg : gatherBack (',' :: '"' :: p ++ (mid.flatMap (fun p => ',' :: p) ++ (',' :: q))) ps with
          | none => left; rfl
          | some x =>
            obtain ⟨val, ps'⟩ := x
            right
            refine ⟨val, ps', ?_, rfl⟩
            have := gatherBack_length _ _ _ _ hg
            intro e
            rw [e, hv] at this
            simp at this
            omega
      · right
        refine ⟨fun h => hm (hR.1 h).2.2, ?_⟩
        obtain ⟨val, ps', h1, h2⟩ := gatherBack_stop (',' :: q) mid (('"' :: p) :: ps) (by
          apply Classical.byContradiction
          intro hc
          apply hm
          intro m hmm
          cases hi : innerQuoting m with
          | false => rfl
          | true => exact absurd ⟨m, hmm, hi⟩ hc)
        rw [h1]
        right
        refine ⟨val, ps', ?_, rfl⟩
        intro e
        rw [e, hv] at h2
        simp at h2
        omega
    · right
      refine ⟨fun h => hq (hR.1 h).2.1, ?_⟩
      have : firstQuoting (q ++ ['"']) = true := by
        cases hf : firstQuoting (q ++ ['"']) with
        | true => rfl
        | false => exact absurd ((firstQuoting_last_iff q).1 hf) hq
      rw [if_pos this]
      right
      refine ⟨_, _, ?_, rfl⟩
      intro e
      have := congrArg List.length e
      rw [hv] at this
      simp at this
      omega

theorem parseGo_other (hs ps : List Str) (d d' : Fields) (h : parseGo hs ps d = some d') (k : Str) (hk : k ∉ hs) :
    Dict.get? d' k = Dict.get? d k := by
  induction hs generalizing ps d with
  | nil => simp [parseGo] at h; rw [h]
  | cons a hs ih =>
    simp only [List.mem_cons, not_or] at hk
    have hset : ∀ v, Dict.get? (Dict.set d a v) k = Dict.get? d k := by
      intro v; simp [Dict.get?_set, Ne.symm hk.1]
    cases ps with
    | nil => simp [parseGo] at h
    | cons v ps =>
      rw [parseGo] at h
      split at h
      · exact ih _ _ h hk.2
      · split at h
        · split at h
          · rw [ih _ _ h hk.2, hset]
          · split at h
            · cases h
            · rw [ih _ _ h hk.2, hset]
        · rw [ih _ _ h hk.2, hset]

/-- A row of cells in quotes is read as its values exactly if all of them are readable. -/
theorem parse_row (row : List (Str × Str)) (hn : (row.map Prod.fst).Nodup) (d : Fields) :
    (∃ d', parseGo (row.map Prod.fst) (row.flatMap (fun kv => (Str.split [','] ('"' :: kv.2 ++ ['"'])).reverse)) d = some d' ∧
      ∀ kv ∈ row, Dict.get? d' kv.1 = some kv.2) ↔ ∀ kv ∈ row, Readable kv.2 := by
  induction row generalizing d with
  | nil => simp [parseGo]
  | cons x row ih =>
    obtain ⟨k, v⟩ := x
    rw [List.map_cons, List.nodup_cons] at hn
    rw [List.map_cons, List.flatMap_cons]
    dsimp only
    rcases parse_quoted v k (row.map Prod.fst) (row.flatMap (fun kv => (Str.split [','] ('"' :: kv.2 ++ ['"'])).reverse)) d with ⟨hr, he⟩ | ⟨hr, he⟩
    · rw [he]
      have := ih hn.2 (Dict.set d k v)
      constructor
      · rintro ⟨d', h1, h2⟩ kv hkv
        rcases List.mem_cons.1 hkv with rfl | hkv
        · exact hr
        · exact this.1 ⟨d', h1, fun kv hkv => h2 kv (by simp [hkv])⟩ kv hkv
      · intro h
        obtain ⟨d', h1, h2⟩ := this.2 (fun kv hkv => h kv (by simp [hkv]))
        refine ⟨d', h1, ?_⟩
        intro kv hkv
        rcases List.mem_cons.1 hkv with rfl | hkv
        · rw [parseGo_other _ _ _ _ h1 k hn.1]
          simp [Dict.get?_set]
        · exact h2 kv hkv
    · constructor
      · rintro ⟨d', h1, h2⟩
        exfalso
        rcases he with he | ⟨w, ps', hw, he⟩
        · rw [he] at h1; cases h1
        · rw [he] at h1
          have h3 := parseGo_other _ _ _ _ h1 k hn.1
          rw [h2 (k, v) (by simp)] at h3
          simp [Dict.get?_set] at h3
          exact hw h3.symm
      · intro h
        exact absurd (h (k, v) (by simp)) hr

end Verif.Lemmas.ScopusExact
