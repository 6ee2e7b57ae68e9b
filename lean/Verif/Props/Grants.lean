import Verif.Model.Grants
import Verif.Spec.Grants
import Verif.Lemmas.Splitting

/-!
# C50 (grant strings), C51 (investigators), C52 (a grant is a mapping)
-/
set_option autoImplicit false
set_option linter.unusedSimpArgs false
set_option linter.unusedSectionVars false
namespace Verif.Props.Grants
open Verif.Py Verif.Model.Grants Verif.Spec.Grants Verif.Spec.Splitting Verif.Lemmas.Splitting

/-! ## C50 -/

theorem split_slash (s : Str) : Str.join ['/'] (Str.split ['/'] s) = s ∧ ∀ p ∈ Str.split ['/'] s, '/' ∉ p :=
  ⟨Str.join_split _ _ (by simp), Str.split_char_pieces '/' s⟩

/-- C50: a Medline grant is bad exactly when its string has no slash; then the string is kept as the country. -/
theorem C50_medline_bad (s : Str) : ((medlineFields s).bad = true ↔ '/' ∉ s) ∧ ('/' ∉ s → (medlineFields s).country = s) := by
  obtain ⟨h1, h2⟩ := split_slash s
  unfold medlineFields
  obtain ⟨r, hr⟩ : ∃ r, r = (Str.split ['/'] s).reverse := ⟨_, rfl⟩
  have hp : Str.split ['/'] s = r.reverse := by rw [hr, List.reverse_reverse]
  rw [hp] at h1 h2 ⊢
  rw [List.reverse_reverse]
  match r with
  | [] => exact absurd hp (by simpa using Str.split_ne_nil _ _)
  | [a] =>
    simp [Str.join] at h1
    subst h1
    have := h2 a (by simp)
    simp [this]
  | [a, b] => simp [Str.join] at h1; simp [← h1]
  | [a, b, c] => simp [Str.join] at h1; by_cases hc : c.length = 2 <;> simp [hc, ← h1]
  | [a, b, c, d] => simp [Str.join] at h1; by_cases hc : c.length = 2 <;> simp [hc, ← h1]
  | a :: b :: c :: d :: e :: r =>
    have : '/' ∈ s := by
      rw [← h1, List.reverse_cons, List.reverse_cons]
      generalize hx : (c :: d :: e :: r).reverse = x
      have hx' : x ≠ [] := by rw [← hx]; simp
      clear h1 h2 hp hr hx
      induction x with
      | nil => exact absurd rfl hx'
      | cons y x ih =>
        simp only [List.cons_append]
        rw [Str.join_cons _ _ _ (by simp)]
        simp
    simp [this]

theorem join_snoc (sep : Str) (ps : List Str) (x : Str) (h : ps ≠ []) : Str.join sep (ps ++ [x]) = Str.join sep ps ++ sep ++ x := by
  induction ps with
  | nil => exact absurd rfl h
  | cons p ps ih =>
    cases ps with
    | nil => rfl
    | cons q ps =>
      rw [List.cons_append, Str.join_cons sep p (q :: ps ++ [x]) (by simp), ih (by simp), Str.join_cons sep p (q :: ps) (by simp)]
      simp

/-- C50: the fields of a Medline grant stand for its string, except for a string with nothing in front of the first of two slashes. -/
theorem C50_medline (s : Str) (hs : '/' ∈ s) (hx : ¬ ∃ a c, '/' ∉ a ∧ '/' ∉ c ∧ s = "/".toList ++ a ++ "/".toList ++ c) : medlineText (medlineFields s) = s := by
  obtain ⟨h1, h2⟩ := split_slash s
  unfold medlineFields
  obtain ⟨r, hr⟩ : ∃ r, r = (Str.split ['/'] s).reverse := ⟨_, rfl⟩
  have hp : Str.split ['/'] s = r.reverse := by rw [hr, List.reverse_reverse]
  rw [hp] at h1 h2 ⊢
  rw [List.reverse_reverse]
  match r with
  | [] => exact absurd hp (by simpa using Str.split_ne_nil _ _)
  | [a] =>
    simp [Str.join] at h1
    exact absurd (h1 ▸ hs) (h2 a (by simp))
  | [a, b] => simp [medlineText, Str.join]; simpa [Str.join] using h1
  | [a, b, c] =>
    simp [Str.join] at h1
    by_cases hc : c.length = 2
    · simp [medlineText, hc, Str.join, h1]
    · have hc0 : c ≠ [] := by
        rintro rfl
        exact hx ⟨b, a, h2 b (by simp), h2 a (by simp), by simpa using h1.symm⟩
      simp [medlineText, hc, hc0, Str.join, h1]
  | [a, b, c, d] =>
    simp [Str.join] at h1
    by_cases hc : c.length = 2
    · simp [medlineText, hc, Str.join, h1]
    · simp [medlineText, hc, Str.join, h1]
  | a :: b :: c :: d :: e :: r =>
    rw [List.reverse_cons, List.reverse_cons, join_snoc _ _ _ (by simp), join_snoc _ _ _ (by simp)] at h1
    have hn : Str.join ['/'] (c :: d :: e :: r).reverse ≠ [] := by
      rw [List.reverse_cons, join_snoc _ _ _ (by simp)]
      simp
    show Str.join ['/'] (Option.toList (if (none : Option Str) = none ∧ some (Str.join ['/'] (c :: d :: e :: r).reverse) = some [] then none else some (Str.join ['/'] (c :: d :: e :: r).reverse)) ++ [] ++ [b] ++ [a]) = s
    rw [if_neg (by simp only [Option.some.injEq, not_and]; exact fun _ => hn)]
    simpa [Str.join] using h1

/-- The exception: these two strings have the same fields, so one of them cannot be rebuilt. -/
theorem C50_medline_ambiguous (a c : Str) (ha : '/' ∉ a) (hc : '/' ∉ c) : medlineFields ("/".toList ++ a ++ "/".toList ++ c) = medlineFields (a ++ "/".toList ++ c) := by
  have e1 : Str.split ['/'] ("/".toList ++ a ++ "/".toList ++ c) = [[], a, c] := by
    have := Str.split_join_char '/' [[], a, c] (by simp) (by simp [ha, hc])
    simpa [Str.join] using this
  have e2 : Str.split ['/'] (a ++ "/".toList ++ c) = [a, c] := by
    have := Str.split_join_char '/' [a, c] (by simp) (by simp [ha, hc])
    simpa [Str.join] using this
  unfold medlineFields
  rw [e1, e2]
  rfl

/-- The id of a Medline grant with a number leaves out the agency, so two agencies' grants are taken for the same one (a remark). -/
theorem C50_medline_id_agency (f : MedlineFields) (n : Str) (hn : f.number = some n) (agency : Option Str) : medlineId { f with agency := agency } = medlineId f := by
  unfold medlineId; simp [hn]

theorem last_slash (a b a' b' : Str) (h : a ++ '/' :: b = a' ++ '/' :: b') (hb : '/' ∉ b) (hb' : '/' ∉ b') : a = a' ∧ b = b' := by
  induction a generalizing a' with
  | nil =>
    cases a' with
    | nil => simp at h; exact ⟨rfl, h⟩
    | cons x a' =>
      rw [List.nil_append, List.cons_append] at h
      injection h with _ h
      exact absurd (by rw [h]; simp) hb
  | cons x a ih =>
    cases a' with
    | nil =>
      rw [List.nil_append, List.cons_append] at h
      injection h with _ h
      exact absurd (by rw [← h]; simp) hb'
    | cons y a' =>
      rw [List.cons_append, List.cons_append] at h
      injection h with h1 h2
      obtain ⟨i1, i2⟩ := ih a' h2
      exact ⟨by rw [h1, i1], i2⟩

theorem medline_pieces (s : Str) : '/' ∉ (medlineFields s).country ∧ ∀ c, (medlineFields s).code = some c → '/' ∉ c ∧ c.length = 2 := by
  obtain ⟨h1, h2⟩ := split_slash s
  unfold medlineFields
  obtain ⟨r, hr⟩ : ∃ r, r = (Str.split ['/'] s).reverse := ⟨_, rfl⟩
  have hp : Str.split ['/'] s = r.reverse := by rw [hr, List.reverse_reverse]
  rw [hp] at h1 h2 ⊢
  rw [List.reverse_reverse]
  match r with
  | [] => exact absurd hp (by simpa using Str.split_ne_nil _ _)
  | [a] =>
    simp [Str.join] at h1
    subst h1
    exact ⟨h2 a (by simp), by simp⟩
  | [a, b] => exact ⟨h2 a (by simp), by simp⟩
  | [a, b, c] =>
    by_cases hc : c.length = 2
    · simp only [hc, if_true]; exact ⟨h2 a (by simp), fun x hx => by rw [← Option.some.inj hx]; exact ⟨h2 c (by simp), hc⟩⟩
    · simp only [hc, if_false]; exact ⟨h2 a (by simp), fun x hx => by cases hx⟩
  | [a, b, c, d] =>
    by_cases hc : c.length = 2
    · simp only [hc, if_true]; exact ⟨h2 a (by simp), fun x hx => by rw [← Option.some.inj hx]; exact ⟨h2 c (by simp), hc⟩⟩
    · simp only [hc, if_false]; exact ⟨h2 a (by simp), fun x hx => by cases hx⟩
  | a :: b :: c :: d :: e :: r => exact ⟨h2 a (by simp), by simp⟩

/-- C50: two Medline grants with numbers, whose codes do not start with a dash, have the same id exactly if number, code and country are the same. -/
theorem C50_medline_id (s t n m : Str) (hn : (medlineFields s).number = some n) (hm : (medlineFields t).number = some m)
    (hs : (medlineFields s).code.bind List.head? ≠ some '-') (ht : (medlineFields t).code.bind List.head? ≠ some '-') :
    medlineId (medlineFields s) = medlineId (medlineFields t) ↔
      n = m ∧ (medlineFields s).code = (medlineFields t).code ∧ (medlineFields s).country = (medlineFields t).country := by
  obtain ⟨s1, s2⟩ := medline_pieces s
  obtain ⟨t1, t2⟩ := medline_pieces t
  unfold medlineId
  rw [hn, hm]
  dsimp only
  generalize (medlineFields s).code = cs at *
  generalize (medlineFields t).code = ct at *
  generalize (medlineFields s).country = ks at *
  generalize (medlineFields t).country = kt at *
  constructor
  · intro h
    have hcs : '/' ∉ cs.getD [] ++ '-' :: ks := by
      cases cs with
      | none => simpa using s1
      | some c => simp [s1, (s2 c rfl).1]
    have hct : '/' ∉ ct.getD [] ++ '-' :: kt := by
      cases ct with
      | none => simpa using t1
      | some c => simp [t1, (t2 c rfl).1]
    obtain ⟨h1, h2⟩ := last_slash n (cs.getD [] ++ '-' :: ks) m (ct.getD [] ++ '-' :: kt) (by simpa using h) hcs hct
    refine ⟨h1, ?_⟩
    cases cs with
    | none =>
      cases ct with
      | none => simp at h2; exact ⟨rfl, h2⟩
      | some c =>
        have hl := (t2 c rfl).2
        cases c with
        | nil => simp at hl
        | cons x c => simp at h2 ht; exact absurd h2.1.symm ht
    | some c =>
      have hl := (s2 c rfl).2
      cases ct with
      | none =>
        cases c with
        | nil => simp at hl
        | cons x c => simp at h2 hs; exact absurd h2.1 hs
      | some c' =>
        have hl' := (t2 c' rfl).2
        simp only [Option.getD_some] at h2
        obtain ⟨e1, e2⟩ := List.append_inj h2 (by rw [hl, hl'])
        exact ⟨by rw [e1], (List.cons.inj e2).2⟩
  · rintro ⟨rfl, rfl, rfl⟩; rfl

/-- C50: without a number the id is made of code, agency and country. -/
theorem C50_medline_id_none (f : MedlineFields) (h : f.number = none) :
    medlineId f = Str.join ['-'] [f.code.getD [], f.agency.getD [], f.country] := by
  unfold medlineId; rw [h]; simp [Str.join]

/-- C50: the fields of a Scopus grant stand for its string exactly when there are at most two separators. -/
theorem C50_scopus (s : Str) (ps : List Str) (h : Splits ", ".toList s ps) : scopusText (scopusFields s) = s ↔ ps.length ≤ 3 := by
  have hps := splits_unique ", ".toList s (by simp) ps h
  have h1 := Str.join_split ", ".toList s (by simp)
  rw [← hps] at h1
  unfold scopusFields
  obtain ⟨r, hr⟩ : ∃ r, r = ps.reverse := ⟨_, rfl⟩
  have hp : ps = r.reverse := by rw [hr, List.reverse_reverse]
  rw [← hps, hp, List.reverse_reverse]
  rw [hp] at h1
  match r with
  | [] => exact absurd (hps.symm.trans hp) (by simpa using Str.split_ne_nil _ _)
  | [a] => simpa [scopusText, Str.join] using h1
  | [a, b] => simpa [scopusText, Str.join] using h1
  | [a, b, c] => simpa [scopusText, Str.join] using h1
  | a :: b :: c :: d :: r =>
    simp only [List.length_reverse, List.length_cons]
    constructor
    · intro h
      exfalso
      rw [List.reverse_cons, List.reverse_cons, List.reverse_cons, join_snoc _ _ _ (by simp), join_snoc _ _ _ (by simp), join_snoc _ _ _ (by simp), ← h] at h1
      have := congrArg List.length h1
      simp [scopusText, Str.join] at this
      omega
    · intro h; omega

/-- C50 fails for more separators: what is in front of the last three pieces is lost. -/
theorem C50_scopus_lost (x a b c : Str) (hx : ¬ ", ".toList <:+: x ++ ",".toList) (ha : ¬ ", ".toList <:+: a ++ ",".toList) (hb : ¬ ", ".toList <:+: b ++ ",".toList)
    (hc : ¬ ", ".toList <:+: c) :
    scopusFields (x ++ ", ".toList ++ (a ++ ", ".toList ++ (b ++ ", ".toList ++ c))) = scopusFields (a ++ ", ".toList ++ (b ++ ", ".toList ++ c)) := by
  unfold scopusFields
  have e := split_first ", ".toList
  have e0 : Str.split ", ".toList (a ++ ", ".toList ++ (b ++ ", ".toList ++ c)) = [a, b, c] := by
    rw [e a _ (by simp) ha, e b _ (by simp) hb, Str.split_none _ _ hc]
  rw [e x _ (by simp) hx, e0]
  rfl

/-! ### Non-vacuity -/

example : medlineFields "R01 X/HL/NHLBI NIH HHS/United States".toList = ⟨"United States".toList, some "NHLBI NIH HHS".toList, some "HL".toList, some "R01 X".toList, false⟩ := by decide
example : (medlineFields "Wellcome Trust".toList).bad = true := by decide
example : scopusFields "12, NSF, National Science Foundation".toList = ⟨"National Science Foundation".toList, some "NSF".toList, some "12".toList⟩ := by decide
example : medlineId (medlineFields "R01 X/HL/NHLBI/US".toList) = medlineId (medlineFields "R01 X/HL/NIH/US".toList) :=
  (C50_medline_id _ _ "R01 X".toList "R01 X".toList (by decide) (by decide) (by decide) (by decide)).2 (by decide)
example : medlineId (medlineFields "R01 X/HL/NHLBI/US".toList) ≠ medlineId (medlineFields "R01 XHL/NHLBI/US".toList) := fun h =>
  absurd ((C50_medline_id _ _ "R01 X".toList "R01 XHL".toList (by decide) (by decide) (by decide) (by decide)).1 h).1 (by decide)
theorem C50_medline_witness : medlineText (medlineFields "/NIH/US".toList) = "NIH/US".toList := by decide
theorem C50_scopus_witness : scopusText (scopusFields "a, 12, NSF, USA".toList) = "12, NSF, USA".toList := by decide

/-! ## C51 -/

theorem forall₂_map {α β : Type} (R : α → β → Prop) (f : α → β) (h : ∀ a, R a (f a)) (l : List α) : List.Forall₂ R l (l.map f) := by
  induction l with
  | nil => exact .nil
  | cons a l ih => exact .cons (h a) ih

theorem namesOf_spec (ws : Char → Bool) (sep : Str) (hs : sep ≠ []) (v : Val) (hv : v ≠ .none) :
    ∃ ns, namesOf ws sep v = .ok ns ∧ Names ws sep (some v) ns := by
  cases v with
  | str s =>
    rw [namesOf, if_neg hs]
    exact ⟨_, rfl, .str s _ _ (splits_split sep s hs) (forall₂_map _ _ (strip_trimmed ws) _)⟩
  | list l =>
    rw [namesOf, if_neg (by simp [hs])]
    refine ⟨_, rfl, .list l _ (forall₂_map _ _ ?_ _)⟩
    intro a
    cases hsp : Str.split sep a with
    | nil => exact absurd hsp (Str.split_ne_nil _ _)
    | cons p ps =>
      refine ⟨p, ps, ?_, strip_trimmed ws p⟩
      rw [← hsp]; exact splits_split sep a hs
  | none => exact absurd rfl hv

theorem investigatorsOf_spec (ws : Char → Bool) (d : Fields) (sep : Str) (hs : sep ≠ []) (tags : List Str) (hv : ∀ t ∈ tags, Dict.get? d t ≠ some .none) :
    ∃ out, investigatorsOf ws d sep tags = .ok out ∧
      ∃ groups : List (List Str), List.Forall₂ (fun t ns => Names ws sep (Dict.get? d t) ns) tags groups ∧
        out = (List.zipWith (fun t ns => ns.map (fun n => (n, t))) tags groups).flatten ∧ out.map Prod.fst = groups.flatten := by
  induction tags with
  | nil => exact ⟨[], rfl, [], .nil, rfl, rfl⟩
  | cons t tags ih =>
    obtain ⟨out, h1, groups, h2, h3, h4⟩ := ih (fun t' h => hv t' (by simp [h]))
    rw [investigatorsOf]
    cases hg : Dict.get? d t with
    | none =>
      refine ⟨out, h1, [] :: groups, .cons ?_ h2, by simp [h3], by simp [h4]⟩
      rw [hg]; exact .absent
    | some v =>
      obtain ⟨ns, n1, n2⟩ := namesOf_spec ws sep hs v (by rintro rfl; exact hv t (by simp) hg)
      simp only [n1, h1]
      refine ⟨_, rfl, ns :: groups, .cons (by rw [hg]; exact n2) h2, by simp [h3], ?_⟩
      rw [List.map_append, h4, List.flatten_cons]
      congr 1
      simp [List.map_map, Function.comp_def]

/-- C51: the names are, for the requested tags in order, those of each field; an absent field gives none. -/
theorem C51_names (ws : Char → Bool) (d : Fields) (sep : Str) (hs : sep ≠ []) (tags : List Str) (hv : ∀ t ∈ tags, Dict.get? d t ≠ some .none) :
    ∃ groups : List (List Str), List.Forall₂ (fun t ns => Names ws sep (Dict.get? d t) ns) tags groups ∧ getInvestigators ws d (.many tags) sep = .ok groups.flatten := by
  obtain ⟨out, h1, groups, h2, -, h4⟩ := investigatorsOf_spec ws d sep hs tags hv
  refine ⟨groups, h2, ?_⟩
  show (investigatorsOf ws d sep tags).map (List.map Prod.fst) = _
  rw [h1]
  show Except.ok (out.map Prod.fst) = _
  rw [h4]

/-- C51: with the tags asked for, each name comes with the tag of its field. -/
theorem C51_tagged (ws : Char → Bool) (d : Fields) (sep : Str) (hs : sep ≠ []) (tags : List Str) (hv : ∀ t ∈ tags, Dict.get? d t ≠ some .none) :
    ∃ groups : List (List Str), List.Forall₂ (fun t ns => Names ws sep (Dict.get? d t) ns) tags groups ∧
      investigatorsOf ws d sep tags = .ok (List.zipWith (fun t ns => ns.map (fun n => (n, t))) tags groups).flatten := by
  obtain ⟨out, h1, groups, h2, h3, -⟩ := investigatorsOf_spec ws d sep hs tags hv
  exact ⟨groups, h2, by rw [h1, h3]⟩

/-- C51: without tags there are no names; one tag is a list of one. -/
theorem C51_defaults (ws : Char → Bool) (d : Fields) (sep t : Str) :
    getInvestigators ws d .none sep = .ok [] ∧ getInvestigators ws d (.one t) sep = getInvestigators ws d (.many [t]) sep := ⟨rfl, rfl⟩

theorem mem_nserc_fold (p : Str → Prop) [DecidablePred p] (ks ts : List Str) (x : Str) :
    x ∈ ks.foldl (fun ts k => if p k ∧ k ∉ ts then ts ++ [k] else ts) ts ↔ x ∈ ts ∨ (x ∈ ks ∧ p x) := by
  induction ks generalizing ts with
  | nil => simp
  | cons k ks ih =>
    rw [List.foldl_cons, ih]
    by_cases hk : p k ∧ k ∉ ts
    · rw [if_pos hk]
      simp only [List.mem_append, List.mem_cons, List.not_mem_nil, or_false]
      constructor
      · rintro ((h | rfl) | h)
        · exact Or.inl h
        · exact Or.inr ⟨Or.inl rfl, hk.1⟩
        · exact Or.inr ⟨Or.inr h.1, h.2⟩
      · rintro (h | ⟨rfl | h, h'⟩)
        · exact Or.inl (Or.inl h)
        · exact Or.inl (Or.inr rfl)
        · exact Or.inr ⟨h, h'⟩
    · rw [if_neg hk]
      simp only [List.mem_cons]
      constructor
      · rintro (h | h)
        · exact Or.inl h
        · exact Or.inr ⟨Or.inr h.1, h.2⟩
      · rintro (h | ⟨rfl | h, h'⟩)
        · exact Or.inl h
        · left; by_contra hn; exact hk ⟨h', hn⟩
        · exact Or.inr ⟨h, h'⟩

theorem nserc_fold_fresh (p : Str → Prop) [DecidablePred p] (ks ts : List Str) (hnd : ks.Nodup) (hd : ∀ k ∈ ks, k ∉ ts) :
    ks.foldl (fun ts k => if p k ∧ k ∉ ts then ts ++ [k] else ts) ts = ts ++ ks.filter (fun k => p k) := by
  induction ks generalizing ts with
  | nil => simp
  | cons k ks ih =>
    obtain ⟨h1, h2⟩ := List.nodup_cons.1 hnd
    rw [List.foldl_cons]
    by_cases hk : p k
    · rw [if_pos ⟨hk, hd k (by simp)⟩, ih _ h2, List.filter_cons_of_pos (by simpa using hk)]
      · simp
      · intro x hx
        simp only [List.mem_append, List.mem_cons, List.not_mem_nil, or_false, not_or]
        exact ⟨hd x (by simp [hx]), by rintro rfl; exact h1 hx⟩
    · rw [if_neg (by simp [hk]), ih _ h2 (fun x hx => hd x (by simp [hx])), List.filter_cons_of_neg (by simpa using hk)]

/-- C51 for NSERC grants without tags: the fields looked at are those whose name holds the mark, in the order of the record. -/
theorem C51_nserc (lower : Str → Str) (mark : Str) (d : Fields) (hd : Dict.WF d) :
    nsercTags lower mark d .none = (Dict.keys d).filter (fun k => decide (mark <:+: lower k)) := by
  unfold nsercTags
  rw [nserc_fold_fresh (fun k => Str.contains mark (lower k) = true) _ _ hd (by simp)]
  rw [List.nil_append]
  congr 1
  funext k
  simp [Str.contains_iff]

/-- C51 for NSERC grants with tags: these come first, then the marked fields that are not among them. -/
theorem C51_nserc_tags (lower : Str → Str) (mark : Str) (d : Fields) (l : List Str) :
    l <+: nsercTags lower mark d (.many l) ∧ ∀ k, k ∈ nsercTags lower mark d (.many l) ↔ k ∈ l ∨ (k ∈ Dict.keys d ∧ mark <:+: lower k) := by
  unfold nsercTags
  constructor
  · generalize Dict.keys d = ks
    show l <+: _
    suffices h : ∀ ts, ts <+: ks.foldl (fun ts k => if Str.contains mark (lower k) = true ∧ k ∉ ts then ts ++ [k] else ts) ts from h l
    induction ks with
    | nil => exact fun ts => List.prefix_rfl
    | cons k ks ih =>
      intro ts
      rw [List.foldl_cons]
      refine List.IsPrefix.trans ?_ (ih _)
      split
      · exact List.prefix_append _ _
      · exact List.prefix_rfl
  · intro k
    rw [mem_nserc_fold (fun k => Str.contains mark (lower k) = true)]
    simp [Str.contains_iff]

/-- C51 for NSERC grants without tags: the names of the marked fields, in the order of the record. -/
theorem C51_nserc_names (ws : Char → Bool) (lower : Str → Str) (mark : Str) (d : Fields) (hd : Dict.WF d) (sep : Str) :
    nsercInvestigators ws lower mark d .none sep = getInvestigators ws d (.many ((Dict.keys d).filter (fun k => decide (mark <:+: lower k)))) sep := by
  unfold nsercInvestigators
  rw [C51_nserc lower mark d hd]

/-- C51 for NSF grants: the names are those of the tags asked for and of the grant's own field: in front of a single tag, behind a list of tags,
and alone without tags. -/
theorem C51_nsf (ws : Char → Bool) (own t : Str) (l : List Str) (d : Fields) (sep : Str) :
    nsfInvestigators ws own d .none sep = getInvestigators ws d (.many [own]) sep ∧
    nsfInvestigators ws own d (.one t) sep = getInvestigators ws d (.many [own, t]) sep ∧
    nsfInvestigators ws own d (.many l) sep = getInvestigators ws d (.many (l ++ [own])) sep := ⟨rfl, rfl, rfl⟩

/-- A list of tags given to an NSF grant is changed: used for a second call it asks for the grant's own field twice, so every name there comes
twice (a remark: the caller's list is the accumulator). -/
theorem C51_nsf_list_grows (own : Str) (l : List Str) : nsfTags own (.many (nsfTags own (.many l))) = l ++ [own, own] := by
  simp [nsfTags]

/-- A list given to an NSERC grant is changed as well, but only once. -/
theorem C51_nserc_list_stable (lower : Str → Str) (mark : Str) (d : Fields) (l : List Str) :
    nsercTags lower mark d (.many (nsercTags lower mark d (.many l))) = nsercTags lower mark d (.many l) := by
  have h := (C51_nserc_tags lower mark d l).2
  generalize nsercTags lower mark d (.many l) = ts at h
  unfold nsercTags
  have hk : ∀ k ∈ Dict.keys d, Str.contains mark (lower k) = true → k ∈ ts := fun k hk hm => (h k).2 (Or.inr ⟨hk, (Str.contains_iff _ _).1 hm⟩)
  generalize Dict.keys d = ks at hk
  show List.foldl _ ts ks = ts
  clear h
  induction ks with
  | nil => rfl
  | cons k ks ih =>
    rw [List.foldl_cons, if_neg (by rintro ⟨h1, h2⟩; exact h2 (hk k (by simp) h1))]
    exact ih (fun x hx => hk x (by simp [hx]))

/-! ### Non-vacuity -/

def exWs : Char → Bool := fun c => c == ' '
def exGrant : Fields := [("Name-Nom".toList, .str "Smith, J; Jones, K ".toList), ("Co".toList, .list ["A B; x".toList, " C".toList])]

example : getInvestigators exWs exGrant (.many ["Co".toList, "none".toList, "Name-Nom".toList]) ";".toList
    = .ok ["A B".toList, "C".toList, "Smith, J".toList, "Jones, K".toList] := by decide +kernel
example : nsercTags (fun s => s.map Char.toLower) "name-".toList exGrant .none = ["Name-Nom".toList] := by decide +kernel
/-- An empty element of an NSF grant makes the call raise `TypeError`, an empty separator `ValueError`. -/
theorem C51_raises : getInvestigators exWs [("a".toList, .none)] (.one "a".toList) ";".toList = .error .type ∧
    getInvestigators exWs [("a".toList, .str "x".toList)] (.one "a".toList) [] = .error .value := by decide +kernel

/-! ## C52 -/

variable {τ ν ε κ : Type} [DecidableEq τ]

def view (g : Grant τ ν ε) : Map ν := fun k => Dict.get? g.fields k

/-- The other grants of a history have well-formed dictionaries (each key once). -/
def OpOk : Op τ ν ε κ → Prop
  | .update g => Dict.WF g.fields
  | _ => True

theorem step_spec (g : Grant τ ν ε) (hg : Dict.WF g.fields) (o : Op τ ν ε κ) (ho : OpOk o) :
    MapStep g.type (view g) o (view (step g o).1) (step g o).2 ∧ Dict.WF (step g o).1.fields ∧ (step g o).1.type = g.type := by
  have hset : ∀ (k : Str) (v : ν), (fun j => Dict.get? (Dict.set g.fields k v) j) = fun j => if j = k then some v else view g j := by
    intro k v; funext j; rw [Dict.get?_set]
    by_cases h : k = j
    · rw [if_pos h, if_pos h.symm]
    · rw [if_neg h, if_neg (Ne.symm h)]; rfl
  have herase : ∀ k : Str, (fun j => Dict.get? (Dict.erase g.fields k) j) = fun j => if j = k then none else view g j := by
    intro k; funext j; rw [Dict.get?_erase _ hg]
    by_cases h : k = j
    · rw [if_pos h, if_pos h.symm]
    · rw [if_neg h, if_neg (Ne.symm h)]; rfl
  cases o with
  | set k v =>
    cases k with
    | str s =>
      refine ⟨?_, Dict.WF_set hg _ _, rfl⟩
      have := MapStep.set (ε := ε) (κ := κ) (type := g.type) (view g) s v
      rw [← hset] at this
      exact this
    | other o => exact ⟨.setOther _ _ _, hg, rfl⟩
  | del k =>
    cases k with
    | str s =>
      rw [step]
      by_cases h : s ∈ Dict.keys g.fields
      · rw [if_pos h]
        refine ⟨?_, Dict.WF_erase hg _, rfl⟩
        have := MapStep.del (ε := ε) (κ := κ) (type := g.type) (view g) s (by
          unfold view; intro e; exact (Dict.get?_eq_none_iff _ _).1 e h)
        rw [← herase] at this
        exact this
      · rw [if_neg h]
        exact ⟨.delAbsent _ _ ((Dict.get?_eq_none_iff _ _).2 h), hg, rfl⟩
    | other o => exact ⟨.delOther _ _, hg, rfl⟩
  | update o =>
    rw [step]
    by_cases ht : g.type ≠ o.type
    · rw [if_pos ht]
      exact ⟨.updateOther _ _ (Ne.symm ht), hg, rfl⟩
    · rw [if_neg ht]
      push Not at ht
      have key : (fun j => Dict.get? (Dict.update g.fields o.fields) j) = fun j => (Dict.get? o.fields j).or (view g j) := by
        funext j
        rw [Dict.get?_update _ _ ho]
        cases Dict.get? o.fields j <;> rfl
      have := MapStep.update (κ := κ) (type := g.type) (view g) o ht.symm
      rw [← key] at this
      by_cases hb : o.bad = true
      · rw [if_pos hb]
        exact ⟨this, Dict.WF_update hg _, rfl⟩
      · rw [if_neg hb]
        exact ⟨this, Dict.WF_update hg _, rfl⟩
  | pop k =>
    cases k with
    | str s =>
      rw [step]
      cases hs : Dict.get? g.fields s with
      | none => exact ⟨.popAbsent _ _ hs, hg, rfl⟩
      | some v =>
        refine ⟨?_, Dict.WF_erase hg _, rfl⟩
        have := MapStep.pop (ε := ε) (κ := κ) (type := g.type) (view g) s v hs
        rw [← herase] at this
        exact this
    | other o => exact ⟨.popOther _ _, hg, rfl⟩
  | setdefault k v =>
    cases k with
    | str s =>
      rw [step]
      cases hs : Dict.get? g.fields s with
      | none =>
        refine ⟨?_, Dict.WF_set hg _ _, rfl⟩
        have := MapStep.setdefaultAbsent (ε := ε) (κ := κ) (type := g.type) (view g) s v hs
        rw [← hset] at this
        exact this
      | some w => exact ⟨.setdefault _ _ _ _ hs, hg, rfl⟩
    | other o => exact ⟨.setdefaultOther _ _ _, hg, rfl⟩
  | clear => exact ⟨.clear _, Dict.WF_nil, rfl⟩

/-- C52: over any history a grant is a dictionary: the same fields, the same results. -/
theorem C52_mapping (ops : List (Op τ ν ε κ)) (g : Grant τ ν ε) (hg : Dict.WF g.fields) (ho : ∀ o ∈ ops, OpOk o) :
    MapRun g.type (fun k => Dict.get? g.fields k) ops (fun k => Dict.get? (runOps g ops).1.fields k) (runOps g ops).2 := by
  induction ops generalizing g with
  | nil => exact .nil _
  | cons o ops ih =>
    obtain ⟨h1, h2, h3⟩ := step_spec g hg o (ho o (by simp))
    have := ih (step g o).1 h2 (fun x hx => ho x (by simp [hx]))
    rw [h3] at this
    exact .cons _ _ _ _ _ _ _ h1 this

/-- C52: no key is ever there twice, so `len` is the number of keys. -/
theorem C52_keys_once (ops : List (Op τ ν ε κ)) (g : Grant τ ν ε) (hg : Dict.WF g.fields) (ho : ∀ o ∈ ops, OpOk o) :
    (Dict.keys (runOps g ops).1.fields).Nodup := by
  induction ops generalizing g with
  | nil => exact hg
  | cons o ops ih => exact ih (step g o).1 (step_spec g hg o (ho o (by simp))).2.1 (fun x hx => ho x (by simp [hx]))

/-- C52: `update` with a bad grant makes the grant bad and takes over its error; with another class it does nothing. -/
theorem C52_update_flags (g o : Grant τ ν ε) :
    (g.type = o.type → (step (κ := κ) g (.update o)).1.bad = (g.bad || o.bad) ∧ (step (κ := κ) g (.update o)).1.error = if o.bad = true then o.error else g.error) ∧
    (g.type ≠ o.type → step (κ := κ) g (.update o) = (g, .notImplemented)) := by
  rw [step]
  constructor
  · intro ht
    rw [if_neg (by simpa using ht)]
    cases ho : o.bad <;> simp [ho]
  · intro ht
    rw [if_pos ht]

/-! ### Non-vacuity -/

def exG : Grant Nat Nat Nat := ⟨0, [("a".toList, 1), ("b".toList, 2)], false, 0⟩
example : ((runOps (κ := Unit) exG [.set (.str "c".toList) 3, .del (.str "a".toList), .del (.str "a".toList), .update ⟨0, [("b".toList, 5)], true, 9⟩, .set (.other ()) 1, .pop (.str "c".toList)]).1.fields,
    (runOps (κ := Unit) exG [.set (.str "c".toList) 3, .del (.str "a".toList), .del (.str "a".toList), .update ⟨0, [("b".toList, 5)], true, 9⟩, .set (.other ()) 1, .pop (.str "c".toList)]).2)
    = ([("b".toList, 5)], [.none, .none, .keyError, .none, .keyError, .value 3]) := by decide +kernel

end Verif.Props.Grants
