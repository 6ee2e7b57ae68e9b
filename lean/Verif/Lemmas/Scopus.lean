import Verif.Model.Scopus
import Verif.Spec.Scopus

/-!
# Lemmas on the Scopus model
-/
set_option autoImplicit false
set_option linter.unusedSimpArgs false
namespace Verif.Lemmas.Scopus
open Verif.Py Verif.Model.Scopus Verif.Spec.Scopus

/-- Each quote is doubled. -/
inductive Dbl : Str → Prop where
  | nil : Dbl []
  | pair (s : Str) : Dbl s → Dbl ('"' :: '"' :: s)
  | char (c : Char) (s : Str) : c ≠ '"' → Dbl s → Dbl (c :: s)

theorem dbl_escape (u : Str) : Dbl (escape u) := by
  unfold escape
  induction u with
  | nil => exact .nil
  | cons c u ih =>
    rw [List.flatMap_cons]
    split
    · exact .pair _ ih
    · rename_i h; exact .char c _ h ih

theorem firstQuoting_whole (p : Str) (h : Dbl p) : firstQuoting ('"' :: p ++ ['"']) = true := by
  induction h with
  | nil => rfl
  | pair s hs ih =>
    show firstQuoting ('"' :: '"' :: ('"' :: s ++ ['"'])) = true
    rw [firstQuoting, ih]; simp
  | char c s hc hs ih =>
    show firstQuoting ('"' :: c :: (s ++ ['"'])) = true
    rw [firstQuoting]
    exact hc

theorem firstQuoting_last (p : Str) (h : Dbl p) : firstQuoting (p ++ ['"']) = false := by
  induction h with
  | nil => rfl
  | pair s hs ih =>
    show firstQuoting ('"' :: '"' :: (s ++ ['"'])) = false
    rw [firstQuoting, ih]
    have : s ++ ['"'] ≠ ['\n'] := by
      intro e
      have := congrArg List.getLast? e
      simp at this
    simp [this]
  | char c s hc hs ih =>
    rw [List.cons_append]
    unfold firstQuoting
    split
    · rename_i h; exact absurd (List.cons.inj h).1 hc
    · rename_i h; exact absurd (List.cons.inj h).1 hc
    · rfl

theorem innerQuoting_inner (p : Str) (h : Dbl p) : innerQuoting p = false := by
  induction h with
  | nil => rfl
  | pair s hs ih => rw [innerQuoting, ih]
  | char c s hc hs ih =>
    unfold innerQuoting
    split
    · rename_i h; exact absurd (List.cons.inj h).1 hc
    · rename_i h; exact absurd (List.cons.inj h).1 hc
    · rfl

theorem innerQuoting_start (p : Str) (h : Dbl p) (q : Nat) (c : Char) (t : Str) (hp : p = List.replicate q '"' ++ c :: t)
    (hc : c ∉ ['"', ',', '|', '$']) : innerQuoting ('"' :: p) = true := by
  induction h generalizing q with
  | nil => simp at hp
  | pair s hs ih =>
    have hc' : c ≠ '"' := fun e => hc (by simp [e])
    match q, hp with
    | 0, hp => simp at hp; exact absurd hp.1.symm hc'
    | 1, hp => simp at hp; exact absurd hp.1.symm hc'
    | q + 2, hp =>
      rw [innerQuoting]
      apply ih q
      simpa [List.replicate_succ] using hp
  | char c' s hc' hs ih =>
    cases q with
    | zero =>
      simp at hp
      obtain ⟨rfl, rfl⟩ := hp
      rw [innerQuoting]
      · simp at hc ⊢
        exact ⟨hc.2.2.1, hc.2.2.2⟩
      · exact hc'
    | succ q => rw [List.replicate_succ, List.cons_append] at hp; exact absurd (by injection hp) hc'

/-- A single quote does not start a cell, nor do quotes only. -/
theorem dbl_append (a b : Str) (c : Char) (hc : c ≠ '"') (h : Dbl (a ++ c :: b)) : Dbl a ∧ Dbl b := by
  generalize hx : a ++ c :: b = x at h
  induction h generalizing a with
  | nil => simp at hx
  | pair s hs ih =>
    match a, hx with
    | [], hx => simp at hx; exact absurd hx.1 hc
    | [y], hx => simp at hx; exact absurd hx.2.1 hc
    | y :: z :: a, hx =>
      simp at hx
      obtain ⟨rfl, rfl, hx⟩ := hx
      obtain ⟨h1, h2⟩ := ih a hx
      exact ⟨.pair _ h1, h2⟩
  | char d s hd hs ih =>
    match a, hx with
    | [], hx => simp at hx; obtain ⟨rfl, rfl⟩ := hx; exact ⟨.nil, hs⟩
    | y :: a', hx =>
      rw [List.cons_append] at hx
      injection hx with e1 e2
      subst e1
      obtain ⟨h1, h2⟩ := ih a' e2
      exact ⟨.char _ _ hd h1, h2⟩

theorem dbl_join (l : List Str) (h : Dbl (Str.join [','] l)) : ∀ p ∈ l, Dbl p := by
  induction l with
  | nil => simp
  | cons p l ih =>
    cases l with
    | nil => intro q hq; simp at hq; subst hq; exact h
    | cons q l =>
      rw [Str.join_cons _ _ _ (by simp), List.append_assoc] at h
      obtain ⟨h1, h2⟩ := dbl_append p _ ',' (by decide) h
      intro r hr
      rcases List.mem_cons.1 hr with rfl | hr
      · exact h1
      · exact ih h2 r hr

/-! ## Pieces -/

theorem splitGo_append_char (c : Char) (acc s t : Str) : Str.splitGo [c] 0 acc (s ++ c :: t) = Str.splitGo [c] 0 acc s ++ Str.splitGo [c] 0 [] t := by
  induction s generalizing acc with
  | nil => simp [Str.splitGo]
  | cons x s ih =>
    by_cases h : c = x
    · subst h
      simp [Str.splitGo, ih]
    · rw [List.cons_append, Str.splitGo, if_neg (by simp [h]), ih, Str.splitGo, if_neg (by simp [h])]

theorem split_join_pieces (c : Char) (l : List Str) (hl : l ≠ []) : Str.split [c] (Str.join [c] l) = l.flatMap (Str.split [c]) := by
  induction l with
  | nil => exact absurd rfl hl
  | cons p l ih =>
    cases l with
    | nil => simp [Str.join]
    | cons q l =>
      rw [Str.join_cons _ _ _ (by simp), List.append_assoc, List.singleton_append, List.flatMap_cons, ← ih (by simp)]
      exact splitGo_append_char c [] p _

theorem splitGo_acc (c : Char) (a acc s : Str) :
    Str.splitGo [c] 0 (a ++ acc) s = (match Str.splitGo [c] 0 acc s with | [] => [] | p :: ps => (a ++ p) :: ps) := by
  induction s generalizing acc with
  | nil => simp [Str.splitGo]
  | cons x s ih =>
    by_cases h : c = x
    · subst h; simp [Str.splitGo]
    · rw [Str.splitGo, if_neg (by simp [h]), List.append_assoc, ih, Str.splitGo, if_neg (by simp [h])]

theorem splitGo_snoc (c x : Char) (hx : c ≠ x) (acc s : Str) :
    ∃ ps p, Str.splitGo [c] 0 acc s = ps ++ [p] ∧ Str.splitGo [c] 0 acc (s ++ [x]) = ps ++ [p ++ [x]] := by
  induction s generalizing acc with
  | nil => exact ⟨[], acc, rfl, by simp [Str.splitGo, hx]⟩
  | cons y s ih =>
    by_cases h : c = y
    · subst h
      obtain ⟨ps, p, h1, h2⟩ := ih []
      refine ⟨acc :: ps, p, ?_, ?_⟩
      · simp [Str.splitGo, h1]
      · simp [Str.splitGo, h2]
    · obtain ⟨ps, p, h1, h2⟩ := ih (acc ++ [y])
      refine ⟨ps, p, ?_, ?_⟩
      · rw [Str.splitGo, if_neg (by simp [h]), h1]
      · rw [List.cons_append, Str.splitGo, if_neg (by simp [h]), h2]

/-- The pieces of a cell in quotes. -/
theorem split_quoted (v : Str) : (∃ p, Str.split [','] v = [p] ∧ p = v ∧ Str.split [','] ('"' :: v ++ ['"']) = ['"' :: v ++ ['"']]) ∨
    ∃ p mid q, Str.split [','] v = p :: mid ++ [q] ∧ Str.split [','] ('"' :: v ++ ['"']) = ('"' :: p) :: mid ++ [q ++ ['"']] := by
  have h0 : ∀ s : Str, Str.split [','] ('"' :: s) = Str.splitGo [','] 0 ['"'] s := by
    intro s
    unfold Str.split
    rw [Str.splitGo, if_neg (by simp)]
    rfl
  obtain ⟨ps, q, h1, h2⟩ := splitGo_snoc ',' '"' (by decide) [] v
  have h3 := splitGo_acc ',' ['"'] [] (v ++ ['"'])
  rw [List.append_nil, h2] at h3
  cases ps with
  | nil =>
    left
    have hv := Str.join_split [','] v (by simp)
    unfold Str.split at hv
    rw [h1] at hv
    simp [Str.join] at hv
    refine ⟨q, h1, hv, ?_⟩
    rw [List.cons_append, h0, h3]
    simp [hv]
  | cons p mid =>
    right
    refine ⟨p, mid, q, h1, ?_⟩
    rw [List.cons_append, h0, h3]
    simp

theorem gatherBack_mid (acc x : Str) (mid ps : List Str) (hm : ∀ p ∈ mid, Dbl p) (hx : innerQuoting ('"' :: x) = true) :
    gatherBack acc (mid.reverse ++ ('"' :: x) :: ps) = some (x ++ mid.flatMap (fun p => ',' :: p) ++ acc, ps) := by
  induction mid using List.reverseRecOn generalizing acc with
  | nil => simp [gatherBack, hx]
  | append_singleton mid m ih =>
    rw [List.reverse_append, List.reverse_singleton, List.singleton_append, List.cons_append, gatherBack,
      if_neg (by rw [innerQuoting_inner m (hm m (by simp))]; simp), ih _ (fun p hp => hm p (by simp [hp]))]
    simp

theorem join_comma (p : Str) (ps : List Str) : Str.join [','] (p :: ps) = p ++ ps.flatMap (fun q => ',' :: q) := by
  induction ps generalizing p with
  | nil => simp [Str.join]
  | cons q ps ih =>
    rw [Str.join_cons _ _ _ (by simp), ih]
    simp

/-- Reading a cell. -/
theorem parse_cell (c : Cell) (hc : c.Ok) (k : Str) (hs ps : List Str) (d : Fields) :
    parseGo (k :: hs) ((Str.split [','] c.text).reverse ++ ps) d
      = parseGo hs ps (match c.value with | none => d | some v => Dict.set d k v) := by
  cases c with
  | bare s =>
    obtain ⟨h1, h2⟩ := hc
    simp only [Cell.text, Cell.value]
    rw [Str.split_none [','] s (by rwa [List.singleton_infix_iff]), List.reverse_singleton, List.singleton_append, parseGo]
    by_cases h : s = []
    · simp [h]
    · simp [h, h2]
  | quoted v =>
    obtain ⟨⟨u, hu⟩, h2⟩ := hc
    have hd : Dbl v := by rw [hu]; exact dbl_escape u
    simp only [Cell.text, Cell.value]
    rcases split_quoted v with ⟨p, e1, e2, e3⟩ | ⟨p, mid, q, e1, e2⟩
    · rw [e3, List.reverse_singleton, List.singleton_append, parseGo, if_neg (by simp), if_pos List.getLast?_concat, if_pos (firstQuoting_whole v hd)]
      simp
    · have hj := Str.join_split [','] v (by simp)
      rw [e1] at hj
      have hdp : ∀ r ∈ p :: mid ++ [q], Dbl r := dbl_join _ (by rw [hj]; exact hd)
      have hv : v = p ++ mid.flatMap (fun r => ',' :: r) ++ (',' :: q) := by
        rw [← hj, List.cons_append, join_comma]
        simp
      have hst : innerQuoting ('"' :: p) = true := by
        obtain ⟨n, c, t, hvt, hcn⟩ := h2 (by rw [hv]; simp)
        have hp : ∃ t', p = List.replicate n '"' ++ c :: t' := by
          have hcomma : ',' ∉ p := Str.split_char_pieces ',' v p (by rw [e1]; simp)
          have hv' : ∃ z, v = p ++ ',' :: z := by
            rw [hv]
            cases mid with
            | nil => exact ⟨q, by simp⟩
            | cons m mid => exact ⟨m ++ mid.flatMap (fun r => ',' :: r) ++ (',' :: q), by simp⟩
          obtain ⟨z, hz⟩ := hv'
          rw [hz] at hvt
          clear hz e1 e2 hj hdp hv hd h2 hu
          induction n generalizing p with
          | zero =>
            cases p with
            | nil => simp at hvt; exact absurd hvt.1.symm (fun e => hcn (by simp [e]))
            | cons y p => simp at hvt; exact ⟨p, by simp [hvt.1]⟩
          | succ n ih =>
            cases p with
            | nil => simp [List.replicate_succ] at hvt
            | cons y p =>
              simp [List.replicate_succ] at hvt
              obtain ⟨t', ht'⟩ := ih p (fun e => hcomma (by simp [e])) hvt.2
              exact ⟨t', by rw [ht', hvt.1]; rfl⟩
        obtain ⟨t', ht'⟩ := hp
        exact innerQuoting_start p (hdp p (by simp)) n c t' ht' hcn
      rw [e2]
      simp only [List.reverse_append, List.reverse_cons, List.reverse_nil, List.nil_append, List.cons_append, List.append_assoc]
      rw [parseGo, if_neg (by simp), if_pos (by simp), if_neg (by rw [firstQuoting_last q (hdp q (by simp))]; simp), List.dropLast_concat,
        gatherBack_mid _ p mid ps (fun r hr => hdp r (by simp [hr])) hst, ← hv]

/-- Setting the values of a row. -/
def fill (d : Fields) (row : List (Str × Cell)) : Fields :=
  row.foldl (fun d kc => match kc.2.value with | none => d | some v => Dict.set d kc.1 v) d

theorem parse_cells (row : List (Str × Cell)) (h : ∀ kc ∈ row, kc.2.Ok) (d : Fields) :
    parseGo (row.map Prod.fst) (row.flatMap (fun kc => (Str.split [','] kc.2.text).reverse)) d = some (fill d row) := by
  induction row generalizing d with
  | nil => rfl
  | cons kc row ih =>
    rw [List.map_cons, List.flatMap_cons, parse_cell kc.2 (h kc (by simp)), ih (fun x hx => h x (by simp [hx]))]
    rfl

theorem get?_fill (row : List (Str × Cell)) (hn : (row.map Prod.fst).Nodup) (d : Fields) (k : Str) :
    (∀ c, (k, c) ∈ row → Dict.get? (fill d row) k = c.value.or (Dict.get? d k)) ∧ (k ∉ row.map Prod.fst → Dict.get? (fill d row) k = Dict.get? d k) := by
  induction row generalizing d with
  | nil => simp [fill]
  | cons x row ih =>
    obtain ⟨k', c'⟩ := x
    rw [List.map_cons, List.nodup_cons] at hn
    have hf : fill d ((k', c') :: row) = fill (match c'.value with | none => d | some v => Dict.set d k' v) row := rfl
    rw [hf]
    obtain ⟨i1, i2⟩ := ih hn.2 (match c'.value with | none => d | some v => Dict.set d k' v)
    constructor
    · intro c hc
      rcases List.mem_cons.1 hc with h | h
      · cases h
        rw [i2 hn.1]
        cases c'.value with
        | none => simp
        | some v => simp [Dict.get?_set]
      · rw [i1 c h]
        have hne : k' ≠ k := fun e => hn.1 (List.mem_map.2 ⟨(k, c), h, e.symm⟩)
        cases c'.value with
        | none => rfl
        | some v => simp [Dict.get?_set, hne]
    · intro hk
      simp only [List.map_cons, List.mem_cons, not_or] at hk
      rw [i2 hk.2]
      cases c'.value with
      | none => rfl
      | some v => simp [Dict.get?_set, Ne.symm hk.1]

theorem parse_line (row : List (Str × Cell)) (hne : row ≠ []) (h : ∀ kc ∈ row, kc.2.Ok) (x : Char) :
    recordParser (row.map Prod.fst) (Str.join [','] (row.map (fun kc => kc.2.text)) ++ [x]) = some (fill [] row.reverse) := by
  unfold recordParser
  rw [List.dropLast_concat, split_join_pieces ',' _ (by simpa using hne)]
  have := parse_cells row.reverse (fun kc hk => h kc (List.mem_reverse.1 hk)) []
  rw [← this, List.map_reverse]
  congr 1
  rw [List.flatMap_map]
  clear this hne h
  induction row with
  | nil => rfl
  | cons a row ih => simp [List.flatMap_cons, ih]

/-! ## The two regular expressions -/

theorem replicate_two (n : Nat) (s : Str) : List.replicate (n + 2) '"' ++ s = '"' :: '"' :: (List.replicate n '"' ++ s) := by
  simp [List.replicate_succ]

/-- `firstQuoting` is the regular expression `("")*"([^"]|"$)`. -/
theorem firstQuoting_iff (v : Str) : firstQuoting v = true ↔
    ∃ n, (∃ c t, c ≠ '"' ∧ v = List.replicate (2 * n) '"' ++ '"' :: c :: t) ∨ v = List.replicate (2 * n) '"' ++ ['"', '"'] ∨
      v = List.replicate (2 * n) '"' ++ ['"', '"', '\n'] := by
  fun_induction firstQuoting v with
  | case1 s ih =>
    simp only [Bool.or_eq_true, beq_iff_eq, ih]
    constructor
    · rintro ((rfl | rfl) | ⟨n, h⟩)
      · exact ⟨0, Or.inr (Or.inl rfl)⟩
      · exact ⟨0, Or.inr (Or.inr rfl)⟩
      · refine ⟨n + 1, ?_⟩
        rw [show 2 * (n + 1) = 2 * n + 2 by omega]
        simp only [replicate_two]
        simpa using h
    · rintro ⟨n, h⟩
      cases n with
      | zero =>
        rcases h with ⟨c, t, hc, h⟩ | h | h
        · simp at h; exact absurd h.1.symm hc
        · simp at h; exact Or.inl (Or.inl h)
        · simp at h; exact Or.inl (Or.inr h)
      | succ n =>
        rw [show 2 * (n + 1) = 2 * n + 2 by omega] at h
        simp only [replicate_two] at h
        exact Or.inr ⟨n, by simpa using h⟩
  | case2 c s h =>
    simp only [true_iff]
    exact ⟨0, Or.inl ⟨c, s, h, rfl⟩⟩
  | case3 v h1 h2 =>
    simp only [Bool.false_eq_true, false_iff]
    rintro ⟨n, h⟩
    cases n with
    | zero =>
      rcases h with ⟨c, t, hc, h⟩ | h | h
      · exact h2 c t h
      · exact h1 [] h
      · exact h1 ['\n'] h
    | succ n =>
      rw [show 2 * (n + 1) = 2 * n + 2 by omega] at h
      simp only [replicate_two] at h
      rcases h with ⟨c, t, hc, h⟩ | h | h <;> exact h1 _ h

/-- `innerQuoting` is the regular expression `("")*"([^"|$])`. -/
theorem innerQuoting_iff (v : Str) : innerQuoting v = true ↔
    ∃ n c t, c ∉ ['"', '|', '$'] ∧ v = List.replicate (2 * n) '"' ++ '"' :: c :: t := by
  fun_induction innerQuoting v with
  | case1 s ih =>
    rw [ih]
    constructor
    · rintro ⟨n, c, t, hc, rfl⟩
      refine ⟨n + 1, c, t, hc, ?_⟩
      rw [show 2 * (n + 1) = 2 * n + 2 by omega, replicate_two]
    · rintro ⟨n, c, t, hc, h⟩
      cases n with
      | zero => simp at h; exact absurd h.1.symm (fun e => hc (by simp [e]))
      | succ n =>
        rw [show 2 * (n + 1) = 2 * n + 2 by omega, replicate_two] at h
        exact ⟨n, c, t, hc, by simpa using h⟩
  | case2 c s h =>
    simp only [Bool.and_eq_true, bne_iff_ne]
    constructor
    · rintro ⟨h1, h2⟩
      exact ⟨0, c, s, by simp; exact ⟨h, h1, h2⟩, rfl⟩
    · rintro ⟨n, c', t, hc, h'⟩
      cases n with
      | zero => simp at h'; obtain ⟨rfl, rfl⟩ := h'; simp at hc; exact ⟨hc.2.1, hc.2.2⟩
      | succ n =>
        rw [show 2 * (n + 1) = 2 * n + 2 by omega, replicate_two] at h'
        simp at h'
        exact absurd h'.1 h
  | case3 v h1 h2 =>
    simp only [Bool.false_eq_true, false_iff]
    rintro ⟨n, c, t, hc, h⟩
    cases n with
    | zero => exact h2 c t h
    | succ n =>
      rw [show 2 * (n + 1) = 2 * n + 2 by omega, replicate_two] at h
      exact h1 _ h

end Verif.Lemmas.Scopus
