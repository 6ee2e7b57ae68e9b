import Verif.Lemmas.ScopusExact
import Verif.Props.Wos
import Verif.Props.Bib

/-!
# C33 and C59: Scopus records and files
-/
set_option autoImplicit false
set_option linter.unusedSimpArgs false
namespace Verif.Props.ScopusFiles
open Verif.Py Verif.Model.Scopus Verif.Spec.Scopus Verif.Lemmas.Scopus Verif.Lemmas.ScopusExact

/-- C33: a line of cells, in quotes or bare, is read as the values of the cells, column by column, whatever commas and doubled quotes they
have. The last character of the line (its end) is dropped. Missing from the full claim: cells that are not `Ok` – a value with a comma that
starts with `|`, `$` or a comma, see `C33_start_lost`. -/
theorem C33_line_partial (row : List (Str × Cell)) (hne : row ≠ []) (hn : (row.map Prod.fst).Nodup) (h : ∀ kc ∈ row, kc.2.Ok) (x : Char) :
    ∃ d, recordParser (row.map Prod.fst) (Str.join [','] (row.map (fun kc => kc.2.text)) ++ [x]) = some d ∧
      (∀ k c, (k, c) ∈ row → Dict.get? d k = c.value) ∧ ∀ k, k ∉ row.map Prod.fst → Dict.get? d k = none := by
  refine ⟨_, parse_line row hne h x, ?_, ?_⟩
  · intro k c hk
    have := (get?_fill row.reverse (by rw [List.map_reverse]; exact (List.reverse_perm _).nodup_iff.2 hn) [] k).1 c (List.mem_reverse.2 hk)
    simpa [Dict.get?] using this
  · intro k hk
    have := (get?_fill row.reverse (by rw [List.map_reverse]; exact (List.reverse_perm _).nodup_iff.2 hn) [] k).2 (by rw [List.map_reverse]; simpa using hk)
    simpa [Dict.get?] using this

/-- The value of a column; absent columns count as empty. -/
def col (d : Fields) (k : Str) : Str := (Dict.get? d k).getD []

/-- A record which is not bad and whose values are readable. -/
structure Good (r : Rec) : Prop where
  notBad : r.bad = false
  id : ∃ e, Dict.get? r.fields "EID".toList = some e ∧ r.id = some ("EID:".toList ++ e)
  vals : ∀ k ∈ scopusHeader, Readable (col r.fields k)

/-- The same id and the same values in all columns of the format; absent columns have become empty ones. -/
def Alike (r' r : Rec) : Prop :=
  (∀ k, Dict.get? r'.fields k = if k ∈ scopusHeader then some (col r.fields k) else none) ∧ r'.id = r.id ∧ r'.bad = r.bad

theorem header_nodup : scopusHeader.Nodup := by decide +kernel

def pairsOf (r : Rec) : List (Str × Str) := scopusHeader.map (fun k => (k, col r.fields k))

theorem pairsOf_fst (r : Rec) : (pairsOf r).map Prod.fst = scopusHeader := by
  unfold pairsOf; rw [List.map_map]; conv_rhs => rw [← List.map_id scopusHeader]
  rfl

theorem parser_written (r : Rec) (x : Char) :
    recordParser scopusHeader (Str.join [','] (scopusHeader.map (fun k => '"' :: (Dict.get? r.fields k).getD [] ++ ['"'])) ++ [x])
      = parseGo ((pairsOf r).reverse.map Prod.fst) ((pairsOf r).reverse.flatMap (fun kv => (Str.split [','] ('"' :: kv.2 ++ ['"'])).reverse)) [] := by
  unfold recordParser
  rw [List.dropLast_concat, split_join_pieces ',' _ (by simp [scopusHeader]), List.map_reverse, pairsOf_fst]
  congr 1
  unfold pairsOf
  generalize scopusHeader = l
  rw [List.flatMap_map]
  induction l with
  | nil => rfl
  | cons a l ih =>
    rw [List.flatMap_cons, List.reverse_append, ih, List.map_cons, List.reverse_cons, List.flatMap_append]
    simp [col]

/-- C33, for all values: the line written for a record that is not bad is read as a record with the same id and the same columns of the format
(absent ones as empty ones) exactly if each of its values is `Readable`, a condition on the quotes at the starts of the pieces between
its commas. -/
theorem C33_exact (r : Rec) (hb : r.bad = false) (hid : ∃ e, Dict.get? r.fields "EID".toList = some e ∧ r.id = some ("EID:".toList ++ e)) :
    ∃ text, writeRecord r = some text ∧
      (Alike (ofString scopusHeader (text ++ ['\n'])) r ↔ ∀ k ∈ scopusHeader, Readable ((Dict.get? r.fields k).getD [])) := by
  refine ⟨_, by unfold writeRecord; rw [hb]; rfl, ?_⟩
  have hp := parser_written r '\n'
  have hr := parse_row (pairsOf r).reverse (by rw [List.map_reverse, pairsOf_fst]; exact (List.reverse_perm _).nodup_iff.2 header_nodup) []
  rw [← hp] at hr
  have hR : (∀ kv ∈ (pairsOf r).reverse, Readable kv.2) ↔ ∀ k ∈ scopusHeader, Readable ((Dict.get? r.fields k).getD []) := by
    constructor
    · intro h k hk
      exact h (k, col r.fields k) (List.mem_reverse.2 (List.mem_map.2 ⟨k, hk, rfl⟩))
    · intro h kv hkv
      obtain ⟨k, hk, rfl⟩ := List.mem_map.1 (List.mem_reverse.1 hkv)
      exact h k hk
  rw [← hR, ← hr]
  have hkeys : ∀ k, k ∈ (pairsOf r).reverse.map Prod.fst ↔ k ∈ scopusHeader := by
    intro k; rw [List.map_reverse, pairsOf_fst, List.mem_reverse]
  generalize Str.join [','] (scopusHeader.map (fun k => '"' :: (Dict.get? r.fields k).getD [] ++ ['"'])) ++ ['\n'] = line at hp ⊢
  constructor
  · rintro ⟨h1, h2, h3⟩
    cases hd : recordParser scopusHeader line with
    | none =>
      exfalso
      have := h1 eid
      unfold ofString at this
      rw [hd, if_pos (by decide +kernel)] at this
      simp [Dict.get?] at this
    | some d =>
      refine ⟨d, rfl, ?_⟩
      intro kv hkv
      obtain ⟨k, hk, rfl⟩ := List.mem_map.1 (List.mem_reverse.1 hkv)
      have := h1 k
      rw [if_pos hk] at this
      rw [← this]
      unfold ofString
      rw [hd]
      simp only [Option.getD_some]
      cases Dict.get? d eid <;> rfl
  · rintro ⟨d, h1, h2⟩
    obtain ⟨e, he, hid⟩ := hid
    have hget : ∀ k, Dict.get? d k = if k ∈ scopusHeader then some (col r.fields k) else none := by
      intro k
      split
      · rename_i hk
        exact h2 (k, col r.fields k) (List.mem_reverse.2 (List.mem_map.2 ⟨k, hk, rfl⟩))
      · rename_i hk
        rw [hp] at h1
        rw [parseGo_other _ _ _ _ h1 k (fun h => hk ((hkeys k).1 h))]
        rfl
    have hee : Dict.get? d eid = some e := by
      rw [hget, if_pos (by decide +kernel)]
      unfold col
      rw [show Dict.get? r.fields eid = some e from he]; rfl
    have : ofString scopusHeader line = ⟨d, some ("EID:".toList ++ e), false⟩ := by
      unfold ofString
      rw [h1]
      simp only [Option.getD_some, hee]
    rw [this]
    exact ⟨hget, hid.symm, hb.symm⟩

/-! ## Values with doubled quotes, as Scopus writes them -/

theorem escape_cons (c : Char) (u : Str) : escape (c :: u) = (if c = '"' then ['"', '"'] else [c]) ++ escape u := rfl

theorem lead_escape (u : Str) : lead (escape u) = 2 * lead u := by
  induction u with
  | nil => rfl
  | cons c u ih =>
    rw [escape_cons]
    by_cases h : c = '"'
    · subst h; simp [lead, ih]; omega
    · simp [lead, h]

theorem firstOther_escape (u : Str) : firstOther (escape u) = firstOther u := by
  induction u with
  | nil => rfl
  | cons c u ih =>
    rw [escape_cons]
    by_cases h : c = '"'
    · subst h; simp [firstOther, ih]
    · simp [firstOther, h]

theorem comma_escape (u : Str) : ',' ∈ escape u ↔ ',' ∈ u := by
  induction u with
  | nil => simp [escape]
  | cons c u ih =>
    rw [escape_cons]
    by_cases h : c = '"'
    · subst h; simp [ih]
    · simp [h, ih]

theorem escape_join (l : List Str) : escape (Str.join [','] l) = Str.join [','] (l.map escape) := by
  induction l with
  | nil => rfl
  | cons p l ih =>
    cases l with
    | nil => rfl
    | cons q l =>
      have ha : ∀ a b : Str, escape (a ++ b) = escape a ++ escape b := by intro a b; unfold escape; exact List.flatMap_append
      rw [Str.join_cons [','] p (q :: l) (by simp), ha, ha, ih, show List.map escape (p :: q :: l) = escape p :: (q :: l).map escape from rfl, Str.join_cons [','] (escape p) ((q :: l).map escape) (by simp)]
      rfl

theorem firstOther_append (p z : Str) : firstOther (p ++ z) = (firstOther p).or (firstOther z) := by
  induction p with
  | nil => simp [firstOther]
  | cons c p ih =>
    by_cases h : c = '"'
    · simp [firstOther, h, ih]
    · simp [firstOther, h]

theorem firstOther_mem (p : Str) (c : Char) (h : firstOther p = some c) : c ∈ p := by
  induction p with
  | nil => simp [firstOther] at h
  | cons x p ih =>
    by_cases hx : x = '"'
    · simp only [firstOther, hx, if_true] at h; simp [ih h]
    · simp only [firstOther, hx, if_false, Option.some.injEq] at h; simp [h]

/-- C33: a value whose quotes are doubled comes back exactly if it has no comma, or its first character that is no quote is no comma, bar or
dollar sign. -/
theorem C33_escaped (u : Str) : Readable (escape u) ↔ (',' ∈ u → firstOther u ≠ some ',' ∧ firstOther u ≠ some '|' ∧ firstOther u ≠ some '$') := by
  constructor
  · rintro (h | ⟨f, m, l, h, hl, h1, ⟨c, hc, h2, h3⟩, h4, h5⟩) hm
    · exact absurd ((comma_escape u).2 hm) h.1
    · have hf : firstOther (escape u) = some c := by
        rw [h, List.cons_append, join_comma, firstOther_append, hc]; rfl
      rw [firstOther_escape] at hf
      rw [hf]
      refine ⟨?_, fun e => h2 (Option.some.inj e), fun e => h3 (Option.some.inj e)⟩
      intro e
      have := firstOther_mem f c hc
      rw [Option.some.inj e] at this
      exact hl f (by simp) this
  · intro h
    by_cases hm : ',' ∈ u
    · obtain ⟨h1, h2, h3⟩ := h hm
      right
      have hj := Str.join_split [','] u (by simp)
      have hpc : ∀ p ∈ Str.split [','] u, ',' ∉ p := fun p hp => Str.split_char_pieces ',' u p hp
      obtain ⟨f, m, l, hs⟩ : ∃ f m l, Str.split [','] u = f :: m ++ [l] := by
        rcases split_quoted u with ⟨p, e1, e2, e3⟩ | ⟨p, mid, q, e1, e2⟩
        · exfalso
          exact hpc p (by rw [e1]; simp) (by rw [e2]; exact hm)
        · exact ⟨p, mid, q, e1⟩
      rw [hs] at hj hpc
      refine ⟨escape f, m.map escape, escape l, ?_, ?_, ?_, ?_, ?_, ?_⟩
      · rw [← hj, escape_join]; simp
      · intro p hp
        have : p ∈ (f :: m ++ [l]).map escape := by simpa using hp
        obtain ⟨p', hp', rfl⟩ := List.mem_map.1 this
        rw [comma_escape]; exact hpc p' hp'
      · rw [lead_escape]; omega
      · rw [firstOther_escape]
        have hu : firstOther u = (firstOther f).or (some ',') := by
          rw [← hj, List.cons_append, join_comma, firstOther_append]
          cases m <;> simp [firstOther]
        cases hf : firstOther f with
        | none => rw [hf] at hu; exact absurd hu h1
        | some c =>
          rw [hf] at hu
          refine ⟨c, rfl, ?_, ?_⟩
          · rintro rfl; exact h2 hu
          · rintro rfl; exact h3 hu
      · rw [lead_escape]; omega
      · intro p hp
        obtain ⟨p', hp', rfl⟩ := List.mem_map.1 hp
        rw [lead_escape]; omega
    · left
      refine ⟨fun h => hm ((comma_escape u).1 h), ?_⟩
      rw [lead_escape]; omega

/-- C33: values without a quote at the start of a piece come back even when the quotes within are not doubled. -/
theorem C33_inner_quotes (v : Str) (h : ∀ p ∈ Str.split [','] v, p.head? ≠ some '"') (hs : ',' ∈ v → firstOther v ≠ some ',' ∧ firstOther v ≠ some '|' ∧ firstOther v ≠ some '$') :
    Readable v := by
  have hl : ∀ p ∈ Str.split [','] v, lead p = 0 := by
    intro p hp
    have := h p hp
    cases p with
    | nil => rfl
    | cons c p => simp at this; simp [lead, this]
  by_cases hm : ',' ∈ v
  · right
    obtain ⟨h1, h2, h3⟩ := hs hm
    have hj := Str.join_split [','] v (by simp)
    have hpc : ∀ p ∈ Str.split [','] v, ',' ∉ p := fun p hp => Str.split_char_pieces ',' v p hp
    rcases split_quoted v with ⟨p, e1, e2, e3⟩ | ⟨p, mid, q, e1, e2⟩
    · exfalso
      exact hpc p (by rw [e1]; simp) (by rw [e2]; exact hm)
    · rw [e1] at hj hpc hl
      refine ⟨p, mid, q, hj.symm, hpc, by rw [hl p (by simp)], ?_, by rw [hl q (by simp)], ?_⟩
      · have hu : firstOther v = (firstOther p).or (some ',') := by
          rw [← hj, List.cons_append, join_comma, firstOther_append]
          cases mid <;> simp [firstOther]
        cases hf : firstOther p with
        | none => rw [hf] at hu; exact absurd hu h1
        | some c =>
          rw [hf] at hu
          refine ⟨c, rfl, ?_, ?_⟩
          · rintro rfl; exact h2 hu
          · rintro rfl; exact h3 hu
      · intro m hm'
        rw [hl m (by simp [hm'])]
        intro e; cases e
  · left
    refine ⟨hm, ?_⟩
    rw [hl v (by rw [Str.split_none [','] v (by rwa [List.singleton_infix_iff])]; simp)]

def rowOf (r : Rec) : List (Str × Cell) := scopusHeader.map (fun k => (k, Cell.quoted (col r.fields k)))

theorem rowOf_text (r : Rec) (h : Good r) : writeRecord r = some (Str.join [','] ((rowOf r).map (fun kc => kc.2.text))) := by
  unfold writeRecord rowOf
  rw [h.notBad, List.map_map]
  rfl

theorem read_written (r : Rec) (h : Good r) (text : Str) (ht : writeRecord r = some text) : Alike (ofString scopusHeader (text ++ ['\n'])) r := by
  obtain ⟨text', h1, h2⟩ := C33_exact r h.notBad h.id
  rw [ht] at h1
  cases h1
  exact h2.2 h.vals

/-- C33: the line written for a record is read as a record with the same id and the same non-empty columns of the format. Absent columns have
become empty ones and columns outside the format are gone. Missing from the full claim: values that are not `Readable`, which do not come
back (`C33_exact`). -/
theorem C33_round_trip_partial (r : Rec) (h : Good r) :
    ∃ text, writeRecord r = some text ∧ Alike (ofString scopusHeader (text ++ ['\n'])) r ∧
      ∀ k ∈ scopusHeader, ∀ v, v ≠ [] → (Dict.get? (ofString scopusHeader (text ++ ['\n'])).fields k = some v ↔ Dict.get? r.fields k = some v) := by
  have ha := read_written r h _ (rowOf_text r h)
  refine ⟨_, rowOf_text r h, ha, ?_⟩
  intro k hk v hv
  rw [ha.1 k, if_pos hk]
  unfold col
  cases Dict.get? r.fields k with
  | none => simp [Ne.symm hv]
  | some w => rfl

/-! ## Values the code cannot read -/

def rec0 (title : String) : Rec := ⟨[("Authors".toList, "A".toList), ("Title".toList, title.toList), ("EID".toList, "1".toList)], some "EID:1".toList, false⟩

/-- C33 fails for a value with a comma that starts with a dollar sign, a bar or a comma: the whole record is lost (the code disagrees with
the property). -/
theorem C33_start_lost : ∀ title ∈ ["$5, or less", "|x|, or y", ", x"], ∃ text, writeRecord (rec0 title) = some text ∧
    ofString scopusHeader (text ++ ['\n']) = ⟨[], none, true⟩ := by
  intro title ht
  simp only [List.mem_cons, List.not_mem_nil, or_false] at ht
  rcases ht with rfl | rfl | rfl <;> exact ⟨_, rfl, by decide +kernel⟩

/-- C33 fails for quotes that are not doubled: a title that starts with one quoted word is lost together with its record. -/
theorem C33_quote_lost : ∃ text, writeRecord (rec0 "\"Big\" data") = some text ∧
    ofString scopusHeader (text ++ ['\n']) = ⟨[], none, true⟩ := ⟨_, rfl, by decide +kernel⟩

/-- C33: when the line has no end, the last character is lost all the same: here the closing quote, which leaves the opening one in the id. -/
theorem C33_no_line_end : ∃ text, writeRecord (rec0 "T") = some text ∧ (ofString scopusHeader text).id = some "EID:\"1".toList :=
  ⟨_, rfl, by decide +kernel⟩

/-! ## Files -/

/-- A record which can be in a file: no line ends in its values. -/
structure GoodInFile (r : Rec) : Prop extends Good r where
  oneLine : ∀ k ∈ scopusHeader, '\n' ∉ col r.fields k ∧ '\r' ∉ col r.fields k

def Distinct (rs : List Rec) : Prop := (rs.map Rec.id).Nodup

theorem join_mem (sep : Str) (l : List Str) (c : Char) (h : c ∈ Str.join sep l) : c ∈ sep ∨ ∃ p ∈ l, c ∈ p := by
  induction l with
  | nil => simp [Str.join] at h
  | cons p l ih =>
    cases l with
    | nil => exact Or.inr ⟨p, by simp, h⟩
    | cons q l =>
      rw [Str.join_cons _ _ _ (by simp)] at h
      rcases List.mem_append.1 h with h | h
      · rcases List.mem_append.1 h with h | h
        · exact Or.inr ⟨p, by simp, h⟩
        · exact Or.inl h
      · rcases ih h with h | ⟨r, hr, h⟩
        · exact Or.inl h
        · exact Or.inr ⟨r, by simp [hr], h⟩

theorem text_oneLine (r : Rec) (h : GoodInFile r) (text : Str) (ht : writeRecord r = some text) : '\n' ∉ text ∧ '\r' ∉ text := by
  rw [rowOf_text r h.toGood] at ht
  cases ht
  have : ∀ c, c ≠ ',' → c ≠ '"' → (∀ k ∈ scopusHeader, c ∉ col r.fields k) → c ∉ Str.join [','] ((rowOf r).map (fun kc => kc.2.text)) := by
    intro c h1 h2 h3 hm
    rcases join_mem _ _ _ hm with hm | ⟨p, hp, hm⟩
    · simp at hm; exact h1 hm
    · obtain ⟨kc, hk, rfl⟩ := List.mem_map.1 hp
      obtain ⟨k, hk', rfl⟩ := List.mem_map.1 hk
      simp only [Cell.text, List.cons_append, List.mem_cons, List.mem_append, List.not_mem_nil, or_false, h2, or_false, false_or] at hm
      exact h3 k hk' hm
  exact ⟨this '\n' (by decide) (by decide) (fun k hk => (h.oneLine k hk).1), this '\r' (by decide) (by decide) (fun k hk => (h.oneLine k hk).2)⟩

theorem addRec_fresh (rs : List Rec) (r : Rec) (hb : r.bad = false) (h : ∀ s ∈ rs, s.bad = false ∧ s.id ≠ r.id) : addRec rs r = rs ++ [r] := by
  unfold addRec
  rw [if_neg]
  intro hc
  rw [List.any_eq_true] at hc
  obtain ⟨s, hs, hk⟩ := hc
  obtain ⟨h1, h2⟩ := h s hs
  simp [Rec.key, hb, h1] at hk
  exact h2 hk

theorem rows (rs : List Rec) (h : ∀ r ∈ rs, GoodInFile r) (done : List Rec) (hdone : ∀ r ∈ done, r.bad = false)
    (hd : (done.map Rec.id ++ rs.map Rec.id).Nodup) : ∃ (ts : List Str) (rs' : List Rec), rs.mapM writeRecord = some ts ∧
    (∀ t ∈ ts, '\n' ∉ t ∧ '\r' ∉ t) ∧ List.Forall₂ Alike rs' rs ∧
    (ts.map (· ++ ['\n'])).foldl (fun rs row => addRec rs (ofString scopusHeader row)) done = done ++ rs' := by
  induction rs generalizing done with
  | nil => exact ⟨[], [], rfl, by simp, .nil, by simp⟩
  | cons r rs ih =>
    have hr := h r (by simp)
    have ht := rowOf_text r hr.toGood
    have ha := read_written r hr.toGood _ ht
    have hl := text_oneLine r hr _ ht
    generalize Str.join [','] ((rowOf r).map (fun kc => kc.2.text)) = text at ht ha hl
    have hb : (ofString scopusHeader (text ++ ['\n'])).bad = false := by rw [ha.2.2]; exact hr.notBad
    obtain ⟨ts, rs', h1, h2, h3, h4⟩ := ih (fun s hs => h s (by simp [hs])) (done ++ [ofString scopusHeader (text ++ ['\n'])])
      (by intro s hs; rcases List.mem_append.1 hs with hs | hs
          · exact hdone s hs
          · simp only [List.mem_singleton] at hs; subst hs; exact hb)
      (by simpa [ha.2.1] using hd)
    refine ⟨text :: ts, ofString scopusHeader (text ++ ['\n']) :: rs', by simp [List.mapM_cons, ht, h1], ?_, .cons ha h3, ?_⟩
    · intro t hm
      rcases List.mem_cons.1 hm with rfl | hm
      · exact hl
      · exact h2 t hm
    · rw [List.map_cons, List.foldl_cons, addRec_fresh done _ hb, h4]
      · simp
      · intro s hs
        refine ⟨hdone s hs, ?_⟩
        rw [ha.2.1]
        intro e'
        rw [List.nodup_append] at hd
        exact hd.2.2 s.id (List.mem_map_of_mem hs) r.id (by simp) e'

def headerLine : Str := Str.join [','] scopusHeader

theorem split_headerLine : Str.split [','] headerLine = scopusHeader :=
  Str.split_join_char ',' scopusHeader (by decide) (by decide +kernel)

theorem headerLine_plain : '\n' ∉ headerLine ∧ '\r' ∉ headerLine := by decide +kernel

theorem symDiff_self (a : List Str) : symDiff a a = 0 := by
  have : a.filter (fun x => x ∉ a) = [] := by
    apply List.filter_eq_nil_iff.2
    intro x hx
    simp [hx]
  unfold symDiff
  rw [this]
  rfl

theorem headerOf_self : headerOf (headerLine ++ ['\n']) = scopusHeader := by
  unfold headerOf
  simp only [List.dropLast_concat, split_headerLine, symDiff_self, if_true]

/-- C59: reading the file written for a collection gives back its records, and the file is recognised as a Scopus file. -/
theorem C59_round_trip (rs : List Rec) (hne : rs ≠ []) (h : ∀ r ∈ rs, GoodInFile r) (hd : Distinct rs) :
    ∃ text rs', writeFile rs = some text ∧ scopusParser text = rs' ∧ List.Forall₂ Alike rs' rs ∧ isScopusFile text = true := by
  obtain ⟨ts, rs', h1, h2, h3, h4⟩ := rows rs h [] (by simp) (by simpa [Distinct] using hd)
  have hcr : '\r' ∉ ('﻿' :: headerLine ++ ['\n'] ++ (ts.map (· ++ ['\n'])).flatten) := by
    simp only [List.cons_append, List.mem_cons, List.mem_append, List.not_mem_nil, or_false, not_or]
    refine ⟨by decide, ⟨headerLine_plain.2, by decide⟩, ?_⟩
    intro hm
    obtain ⟨l, hl, hm⟩ := List.mem_flatten.1 hm
    obtain ⟨t, ht, rfl⟩ := List.mem_map.1 hl
    simp at hm
    exact (h2 t ht).2 hm
  have hlines : Lines.lines (headerLine ++ ['\n'] ++ (ts.map (· ++ ['\n'])).flatten) = (headerLine ++ ['\n']) :: ts.map (· ++ ['\n']) := by
    rw [List.append_assoc, List.singleton_append, Lines.lines_append _ _ headerLine_plain.1]
    congr 1
    have := Lines.lines_flatten (ts.map (· ++ ['\n'])) (by
      intro l hl
      obtain ⟨t, ht, rfl⟩ := List.mem_map.1 hl
      exact ⟨t, rfl, (h2 t ht).1⟩) []
    rw [List.append_nil] at this
    rw [this]
    simp [Lines.lines]
  refine ⟨'﻿' :: headerLine ++ ['\n'] ++ (ts.map (· ++ ['\n'])).flatten, rs', by simp [writeFile, hne, h1, headerLine], ?_, h3, ?_⟩
  · unfold scopusParser
    rw [Lines.univ_id _ hcr, List.cons_append, List.cons_append, List.drop_succ_cons, List.drop_zero, hlines]
    simp only [headerOf_self]
    rw [h4]
    rfl
  · unfold isScopusFile
    rw [Lines.univ_id _ hcr, List.cons_append, List.cons_append]
    simp only [if_true]
    rw [hlines, List.any_eq_true]
    refine ⟨headerLine ++ ['\n'], by simp, ?_⟩
    rw [List.dropLast_concat, split_headerLine, symDiff_self]
    decide

/-- C59: the text of the file: a byte order mark, the line of the columns and a line for each record in their order. Nothing is written for an empty
collection and for one with a bad record. -/
theorem C59_written (rs : List Rec) :
    (rs ≠ [] → (∀ r ∈ rs, r.bad = false) → writeFile rs =
      some ('\uFEFF' :: [','].intercalate (columns.map String.toList) ++ ['\n'] ++ rs.flatMap (fun r => line (Dict.get? r.fields)))) ∧
    (rs = [] ∨ (∃ r ∈ rs, r.bad = true) → writeFile rs = none) := by
  have hc : scopusHeader = columns.map String.toList := rfl
  have hw : ∀ r : Rec, r.bad = false → writeRecord r = some (Str.join [','] (scopusHeader.map (fun k => '"' :: (Dict.get? r.fields k).getD [] ++ ['"']))) := by
    intro r hr; unfold writeRecord; rw [hr]; rfl
  constructor
  · intro hne hb
    unfold writeFile
    rw [if_neg hne]
    have : rs.mapM writeRecord = some (rs.map (fun r => Str.join [','] (scopusHeader.map (fun k => '"' :: (Dict.get? r.fields k).getD [] ++ ['"'])))) := by
      clear hne
      induction rs with
      | nil => rfl
      | cons r rs ih =>
        rw [List.mapM_cons, hw r (hb r (by simp)), ih (fun x hx => hb x (by simp [hx]))]
        rfl
    rw [this, Option.map_some, Verif.Props.Bib.join_intercalate, hc]
    congr 2
    rw [List.map_map, ← List.flatMap_def]
    congr 1
    funext r
    simp only [Function.comp_apply, Verif.Props.Bib.join_intercalate, List.map_map, line]
    rfl
  · rintro (rfl | ⟨r, hr, hb⟩)
    · rfl
    · unfold writeFile
      split
      · rfl
      · have : rs.mapM writeRecord = none := by
          rename_i hne
          clear hne
          induction rs with
          | nil => cases hr
          | cons x rs ih =>
            rw [List.mapM_cons]
            rcases List.mem_cons.1 hr with rfl | hr
            · have : writeRecord r = none := by unfold writeRecord; rw [hb]; rfl
              rw [this]; rfl
            · rw [ih hr]
              cases writeRecord x <;> rfl
        rw [this]; rfl

/-- C59 fails for files with the columns in another order: the order of the header of the file is ignored, and the cells are assigned in the
order the code knows (the code disagrees with the property). -/
theorem C59_header_order_ignored (header : List Str) (hp : header.Perm scopusHeader) (rows : Str) :
    scopusParser ('﻿' :: Str.join [','] header ++ '\n' :: rows) = scopusParser ('﻿' :: headerLine ++ '\n' :: rows) := by
  have hmem : ∀ x, x ∈ header ↔ x ∈ scopusHeader := fun x => hp.mem_iff
  have hplain : ∀ k ∈ scopusHeader, ',' ∉ k ∧ '\n' ∉ k ∧ '\r' ∉ k := by decide +kernel
  have hnl : '\n' ∉ Str.join [','] header ∧ '\r' ∉ Str.join [','] header := by
    constructor <;> intro hm <;> rcases join_mem _ _ _ hm with hm | ⟨p, hpm, hm⟩
    · simp at hm
    · exact (hplain p ((hmem p).1 hpm)).2.1 hm
    · simp at hm
    · exact (hplain p ((hmem p).1 hpm)).2.2 hm
  have hne : header ≠ [] := by rintro rfl; have := hp.length_eq; simp [scopusHeader] at this
  have hsplit : Str.split [','] (Str.join [','] header) = header :=
    Str.split_join_char ',' header hne (fun p hpm => (hplain p ((hmem p).1 hpm)).1)
  have key : ∀ h : Str, '\n' ∉ h → '\r' ∉ h → headerOf (h ++ ['\n']) = scopusHeader → scopusParser ('﻿' :: h ++ '\n' :: rows)
      = (Lines.lines (Lines.univ rows)).foldl (fun rs row => addRec rs (ofString scopusHeader row)) [] := by
    intro h h1 h2 h3
    unfold scopusParser
    have : '﻿' :: h ++ '\n' :: rows = ('﻿' :: h ++ ['\n']) ++ rows := by simp
    rw [this, Verif.Props.WosFiles.univ_append _ _ (by
      simp only [List.cons_append, List.mem_cons, List.mem_append, List.not_mem_nil, or_false, not_or]
      exact ⟨by decide, h2, by decide⟩)]
    rw [List.cons_append, List.cons_append, List.drop_succ_cons, List.drop_zero, List.append_assoc, List.singleton_append, Lines.lines_append _ _ h1]
    simp only [h3]
  have hh : headerOf (Str.join [','] header ++ ['\n']) = scopusHeader := by
    unfold headerOf
    simp only [List.dropLast_concat, hsplit]
    rw [if_pos]
    unfold symDiff
    have e1 : header.filter (fun x => x ∉ scopusHeader) = [] := by
      apply List.filter_eq_nil_iff.2
      intro x hx
      simp [(hmem x).1 hx]
    have e2 : scopusHeader.filter (fun x => x ∉ header) = [] := by
      apply List.filter_eq_nil_iff.2
      intro x hx
      simp [(hmem x).2 hx]
    rw [e1, e2]
    rfl
  rw [key _ hnl.1 hnl.2 hh, key _ headerLine_plain.1 headerLine_plain.2 headerOf_self]

/-! ## Non-vacuity -/

def exRec : Rec := ⟨[("Authors".toList, "A, B.".toList), ("Title".toList, "On \"\"x, y\"\", z".toList), ("EID".toList, "1".toList)], some "EID:1".toList, false⟩

theorem exGood : GoodInFile exRec := by
  refine ⟨⟨rfl, ⟨_, rfl, rfl⟩, ?_⟩, by decide +kernel⟩
  have h0 : ∀ k, col exRec.fields k = "A, B.".toList ∨ col exRec.fields k = "On \"\"x, y\"\", z".toList ∨ col exRec.fields k = "1".toList ∨ col exRec.fields k = [] := by
    intro k
    by_cases h1 : "Authors".toList = k
    · left; subst h1; rfl
    by_cases h2 : "Title".toList = k
    · right; left; subst h2; rfl
    by_cases h3 : "EID".toList = k
    · right; right; left; subst h3; rfl
    · right; right; right; unfold col exRec; simp only [Dict.get?, h1, h2, h3, if_false]; rfl
  intro k _
  rcases h0 k with h | h | h | h <;> rw [h]
  · exact (C33_escaped "A, B.".toList).2 (by decide)
  · exact (C33_escaped "On \"x, y\", z".toList).2 (by decide)
  · exact (C33_escaped "1".toList).2 (by decide)
  · exact (C33_escaped []).2 (by decide)

example : ∃ text, writeRecord exRec = some text ∧ Alike (ofString scopusHeader (text ++ ['\n'])) exRec := by
  obtain ⟨text, h1, h2⟩ := C33_exact exRec rfl ⟨_, rfl, rfl⟩
  exact ⟨text, h1, h2.2 exGood.vals⟩
example : Readable "say \"x, y\" twice".toList := C33_inner_quotes _ (by decide +kernel) (by decide)
example : ¬ Readable (escape "$5, or less".toList) := by rw [C33_escaped]; decide
example := C33_round_trip_partial exRec exGood.toGood
example := C59_round_trip [exRec] (by simp) (by intro r hr; simp only [List.mem_singleton] at hr; subst hr; exact exGood) (by unfold Distinct; decide)
example := C33_line_partial [("a".toList, .bare "x".toList), ("b".toList, .bare []), ("c".toList, .quoted "p, \"\"q\"\"".toList)] (by simp) (by decide)
  (by
    intro kc hk
    simp only [List.mem_cons, List.not_mem_nil, or_false] at hk
    rcases hk with rfl | rfl | rfl
    · exact ⟨by decide, by decide⟩
    · exact ⟨by decide, by decide⟩
    · exact ⟨⟨"p, \"q\"".toList, by decide⟩, fun _ => ⟨0, 'p', ", \"\"q\"\"".toList, by decide, by decide⟩⟩) '\n'

end Verif.Props.ScopusFiles
