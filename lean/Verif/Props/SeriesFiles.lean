import Verif.Model.SeriesFiles
import Verif.Props.Series
import Verif.Props.Tables

/-! # C96: the csv files of `rankedSeries`, `timeSeries`, `forBurst` and `forNLP` -/
set_option autoImplicit false
set_option linter.unusedSimpArgs false
namespace Verif.Props.SeriesFiles
open Verif.Py Verif.Model.Series Verif.Model.SeriesFiles Verif.Spec

variable {ρ α : Type} [DecidableEq α]

/-- The rows that Python's csv reader finds in a file (opened with `newline = ''`). -/
def rowsOf (t : Str) : List (List Str) := CsvAll.read CsvMin.excel t

theorem rowsOf_rows (l : List (List Str)) : rowsOf (CsvMin.rows CsvMin.excel l) = l := CsvMin.read_rows _ CsvMin.excel_ok l

/-- C96: unless both counts and ranks are asked for, the file of `rankedSeries` has the header and then, in the same order, one row for each of the
pairs of value and count which the function gives with `giveCounts` (they are described by C09). -/
theorem C96_ranked (text : α → Str) (tag : Str) (field : ρ → Option (FieldVal α)) (recs : List ρ) (gc gr gf : Bool) (lim : Option (List α))
    (h : ¬ (gc = true ∧ gr = true)) :
    ∃ t l, rankedFile text tag field recs gc gr gf lim = some t ∧ rankedSeries field recs true false gf false lim = .ok (.pairs l) ∧
      rowsOf t = [tag, "count".toList] :: l.map (fun p => [text p.1, showNat p.2]) := by
  refine ⟨_, _, ?_, rfl, rowsOf_rows _⟩
  unfold rankedFile
  rw [if_neg]
  intro h'
  rw [Bool.and_eq_true] at h'
  exact h ⟨h'.2, h'.1⟩

/-- C96: no file is made when the function raises. -/
theorem C96_ranked_raises (text : α → Str) (tag : Str) (field : ρ → Option (FieldVal α)) (recs : List ρ) (gf : Bool) (lim : Option (List α)) :
    rankedFile text tag field recs true true gf lim = none := rfl

/-- C96: where different values have different texts, the count of a value can be read off the file: a row `v, n` is in it exactly when the number of
occurrences of `v` is `n` and not 0, and `v` is permitted. -/
theorem C96_ranked_row (text : α → Str) (hinj : ∀ v w, text v = text w → v = w) (tag : Str) (field : ρ → Option (FieldVal α)) (recs : List ρ) (gc gr gf : Bool)
    (lim : Option (List α)) (h : ¬ (gc = true ∧ gr = true)) :
    ∃ t, rankedFile text tag field recs gc gr gf lim = some t ∧
      ∀ v n, [text v, showNat n] ∈ (rowsOf t).tail ↔ n = occurrences field recs v ∧ 0 < n ∧ Permitted lim v := by
  obtain ⟨t, l, h1, h2, h3⟩ := C96_ranked text tag field recs gc gr gf lim h
  obtain ⟨l', h2', h4, -⟩ := Verif.Props.C09_counts field recs gf lim
  rw [h2] at h2'
  cases h2'
  refine ⟨t, h1, fun v n => ?_⟩
  rw [h3, List.tail_cons, ← h4.2 v n, List.mem_map]
  constructor
  · rintro ⟨p, hp, e⟩
    simp only [List.cons.injEq, and_true] at e
    have e1 := hinj _ _ e.1
    have e2 : p.2 = n := by
      have := showInt_injective (.ofNat p.2) (.ofNat n) e.2
      exact Int.ofNat.inj this
    rw [← e1, ← e2]
    exact hp
  · exact fun hp => ⟨(v, n), hp, rfl⟩

/-- What a time file says: each value in one row with its years, each once. -/
theorem timeRows_spec {β : Type} [DecidableEq β] (text : β → Str) (tag : Str) (d : Dict β (Dict Nat Nat)) (hd : Inv2 d) (hne : ∀ p ∈ d, p.2 ≠ []) :
    ∃ l : List (β × List Nat), rowsOf (timeRows text tag d) =
        [tag, "years".toList] :: l.map (fun p => [text p.1, Str.join ['|'] (p.2.map showNat)]) ∧
      (l.map Prod.fst).Nodup ∧ (∀ v, v ∈ l.map Prod.fst ↔ ∃ y, 0 < cnt2 d v y) ∧
      ∀ p ∈ l, p.2.Nodup ∧ ∀ y, y ∈ p.2 ↔ 0 < cnt2 d p.1 y := by
  have hin : ∀ p ∈ d, (Dict.keys p.2).Nodup ∧ ∀ y, y ∈ Dict.keys p.2 ↔ 0 < cnt2 d p.1 y := by
    intro p hp
    have hg := (Dict.get?_eq_some_iff hd.wf p.1 p.2).2 hp
    obtain ⟨hw, hpos⟩ := hd.inner _ _ hg
    refine ⟨hw, fun y => ?_⟩
    unfold cnt2
    rw [hg, Option.getD_some, Dict.mem_keys_iff]
    unfold Dict.cnt
    cases hy : Dict.get? p.2 y with
    | none => simp
    | some n => simpa using hpos y n hy
  refine ⟨d.map (fun p => (p.1, Dict.keys p.2)), ?_, ?_, ?_, ?_⟩
  · unfold timeRows
    rw [rowsOf_rows, List.map_map]
    rfl
  · rw [List.map_map]
    exact hd.wf
  · intro v
    rw [List.map_map, List.mem_map]
    constructor
    · rintro ⟨p, hp, rfl⟩
      cases hk : p.2 with
      | nil => exact absurd hk (hne p hp)
      | cons q r => exact ⟨q.1, ((hin p hp).2 q.1).1 (by rw [hk]; simp [Dict.keys])⟩
    · rintro ⟨y, hy⟩
      unfold cnt2 at hy
      cases hg : Dict.get? d v with
      | none => rw [hg] at hy; simp [Dict.cnt] at hy
      | some i => exact ⟨(v, i), Dict.mem_of_get? hg, rfl⟩
  · intro p hp
    obtain ⟨q, hq, rfl⟩ := List.mem_map.1 hp
    exact hin q hq

theorem incr2_ne (d : Dict α (Dict Nat Nat)) (hd : ∀ p ∈ d, p.2 ≠ []) (k : α) (y : Nat) : ∀ p ∈ incr2 d k y, p.2 ≠ [] := by
  have hset : ∀ (d : Dict α (Dict Nat Nat)) (w : Dict Nat Nat), (∀ p ∈ d, p.2 ≠ []) → w ≠ [] → ∀ p ∈ d.set k w, p.2 ≠ [] := by
    intro d w
    induction d with
    | nil =>
      intro _ hw p hp
      simp only [Dict.set, List.mem_singleton] at hp
      rw [hp]; exact hw
    | cons q d ih =>
      intro h hw p hp
      unfold Dict.set at hp
      split at hp
      · rcases List.mem_cons.1 hp with rfl | hp
        · exact hw
        · exact h p (List.mem_cons_of_mem _ hp)
      · rcases List.mem_cons.1 hp with rfl | hp
        · exact h _ (by simp)
        · exact ih (fun p hp => h p (List.mem_cons_of_mem _ hp)) hw p hp
  unfold incr2
  split
  · rename_i inner hi
    refine hset d _ hd ?_
    intro e
    have h1 : Dict.cnt (Dict.incr inner y) y = Dict.cnt inner y + 1 := by rw [Dict.cnt_incr]; simp
    rw [e] at h1
    simp [Dict.cnt] at h1
  · exact hset d _ hd (by simp)

/-- C96: the file of `timeSeries` has the header and one row for every permitted value that occurs in a record with a year; the row has the value
and, separated by `|`, each of the years in which it occurs, once. -/
theorem C96_time (text : α → Str) (tag : Str) (year : ρ → Option Nat) (field : ρ → Option (FieldVal α)) (recs : List ρ) (lim : Option (List α)) :
    ∃ l : List (α × List Nat), rowsOf (timeFileTag text tag year field recs lim) =
        [tag, "years".toList] :: l.map (fun p => [text p.1, Str.join ['|'] (p.2.map showNat)]) ∧
      (l.map Prod.fst).Nodup ∧ (∀ v, v ∈ l.map Prod.fst ↔ Permitted lim v ∧ ∃ y, 0 < occurrencesIn year field recs v y) ∧
      ∀ p ∈ l, p.2.Nodup ∧ ∀ y, y ∈ p.2 ↔ 0 < occurrencesIn year field recs p.1 y := by
  obtain ⟨hinv, hcnt⟩ := Verif.Props.countYears_spec year field lim recs
  have hne : ∀ p ∈ countYears year field lim recs, p.2 ≠ [] := by
    rw [Verif.Props.countYears_eq]
    have key : ∀ (l : List (α × Nat)) (d : Dict α (Dict Nat Nat)), (∀ p ∈ d, p.2 ≠ []) → ∀ p ∈ l.foldl (fun d p => incr2 d p.1 p.2) d, p.2 ≠ [] := by
      intro l
      induction l with
      | nil => exact fun d h => h
      | cons a l ih => exact fun d h => ih _ (incr2_ne d h a.1 a.2)
    exact key _ [] (by simp)
  obtain ⟨l, h1, h2, h3, h4⟩ := timeRows_spec text tag _ hinv hne
  have hiff : ∀ v, (∃ y, 0 < cnt2 (countYears year field lim recs) v y) ↔ Permitted lim v ∧ ∃ y, 0 < occurrencesIn year field recs v y := by
    intro v
    rw [← allowed_iff]
    constructor
    · rintro ⟨y, hy⟩
      rw [hcnt] at hy
      split at hy
      · rename_i ha; exact ⟨ha, y, hy⟩
      · cases hy
    · rintro ⟨ha, y, hy⟩
      exact ⟨y, by rw [hcnt, if_pos ha]; exact hy⟩
  refine ⟨l, h1, h2, fun v => (h3 v).trans (hiff v), fun p hp => ⟨(h4 p hp).1, fun y => ?_⟩⟩
  have hperm : Permitted lim p.1 := ((hiff p.1).1 ((h3 p.1).1 (List.mem_map_of_mem hp))).1
  rw [(h4 p hp).2 y, hcnt, if_pos ((allowed_iff lim p.1).2 hperm)]

/-- C96: without a tag there is one row for every record that has a year, with the text of the record and the year. -/
theorem C96_time_records [DecidableEq ρ] (text : ρ → Str) (year : ρ → Option Nat) (recs : List ρ) :
    ∃ l : List (ρ × Nat), rowsOf (timeFileRecords text year recs) = ["None".toList, "years".toList] :: l.map (fun p => [text p.1, showNat p.2]) ∧
      (l.map Prod.fst).Nodup ∧ ∀ r y, (r, y) ∈ l ↔ r ∈ recs ∧ year r = some y := by
  obtain ⟨hinv, hcnt⟩ := Verif.Props.recordYears_spec year recs
  have hne : ∀ (l : List ρ) (d : Dict ρ (Dict Nat Nat)), (∀ p ∈ d, ∃ y, p.2 = [(y, 1)]) →
      ∀ p ∈ l.foldl (fun d r => match year r with | none => d | some y => d.set r [(y, 1)]) d, ∃ y, p.2 = [(y, 1)] := by
    intro l
    induction l with
    | nil => exact fun d h => h
    | cons r l ih =>
      intro d h
      rw [List.foldl_cons]
      apply ih
      cases hy : year r with
      | none => exact h
      | some y =>
        intro p hp
        have : ∀ (d : Dict ρ (Dict Nat Nat)), (∀ p ∈ d, ∃ y, p.2 = [(y, 1)]) → ∀ p ∈ d.set r [(y, 1)], ∃ y, p.2 = [(y, 1)] := by
          intro d
          induction d with
          | nil =>
            intro _ p hp
            simp only [Dict.set, List.mem_singleton] at hp
            exact ⟨y, by rw [hp]⟩
          | cons q d ih =>
            intro h p hp
            unfold Dict.set at hp
            split at hp
            · rcases List.mem_cons.1 hp with rfl | hp
              · exact ⟨y, rfl⟩
              · exact h p (List.mem_cons_of_mem _ hp)
            · rcases List.mem_cons.1 hp with rfl | hp
              · exact h _ (by simp)
              · exact ih (fun p hp => h p (List.mem_cons_of_mem _ hp)) p hp
        exact this d h p hp
  have hone : ∀ p ∈ recordYears year recs, ∃ y, p.2 = [(y, 1)] := hne recs [] (by simp)
  refine ⟨(recordYears year recs).map (fun p => (p.1, (p.2.headD (0, 0)).1)), ?_, ?_, ?_⟩
  · unfold timeFileRecords timeRows
    rw [rowsOf_rows, List.map_map]
    congr 1
    apply List.map_congr_left
    intro p hp
    obtain ⟨y, hy⟩ := hone p hp
    simp [hy, Dict.keys, Str.join]
  · rw [List.map_map]
    exact hinv.wf
  · intro r y
    have := hcnt r y
    constructor
    · intro h
      obtain ⟨p, hp, e⟩ := List.mem_map.1 h
      obtain ⟨z, hz⟩ := hone p hp
      rw [hz] at e
      simp only [List.headD_cons, Prod.mk.injEq] at e
      have hg := (Dict.get?_eq_some_iff hinv.wf p.1 p.2).2 hp
      have h1 : cnt2 (recordYears year recs) r y = 1 := by
        unfold cnt2
        rw [← e.1, hg, hz, ← e.2]
        simp [Dict.cnt, Dict.get?]
      rw [h1] at this
      by_contra hn
      rw [if_neg hn] at this
      cases this
    · intro h
      rw [if_pos h] at this
      unfold cnt2 at this
      cases hg : Dict.get? (recordYears year recs) r with
      | none => rw [hg] at this; simp [Dict.cnt] at this
      | some i =>
        have hp := Dict.mem_of_get? hg
        obtain ⟨z, hz⟩ := hone _ hp
        simp only at hz
        subst hz
        rw [hg] at this
        have hzy : z = y := by
          by_contra hn
          simp [Dict.cnt, Dict.get?, hn] at this
        exact List.mem_map.2 ⟨_, hp, by simp [hzy]⟩

/-- Witness: a value with a comma and a quotation mark comes back; one value occurs in two records, and the year of one record is missing. -/
example : (rankedFile (ρ := Nat) (α := Str) id "AF".toList (fun r => some (.list (if r = 1 then ["B, \"b\"".toList] else ["A".toList, "B, \"b\"".toList]))) [1, 2]
      false true true none).map rowsOf
    = some [["AF".toList, "count".toList], ["B, \"b\"".toList, "2".toList], ["A".toList, "1".toList]] := by decide +kernel

example : rowsOf (timeFileTag (ρ := Nat) (α := Str) id "AF".toList (fun r => if r = 3 then none else some (2000 + r)) (fun _ => some (.list ["A".toList])) [1, 2, 3] none)
    = [["AF".toList, "years".toList], ["A".toList, "2001|2002".toList]] := by decide +kernel

example : rowsOf (timeFileRecords (ρ := Nat) showNat (fun r => if r = 3 then none else some (2000 + r)) [1, 2, 3])
    = [["None".toList, "years".toList], ["1".toList, "2001".toList], ["2".toList, "2002".toList]] := by decide +kernel

/-! ## The tables -/

/-- C96: the file of `forBurst` has one row for each word, with its year, in order, and no header. -/
theorem C96_burst {Y : Type} (text : Y → Str) (ch : Model.Tables.Chars) (o : Model.Tables.NlpOpts) (v : Model.Tables.BurstView Y ρ) (recs : List ρ) :
    rowsOf (burstFile text (Model.Tables.forBurst ch o v recs)) =
      recs.flatMap (fun R => match v.year R, v.text R with
        | some y, some t => (Model.Tables.burstPrep ch o t).map (fun w => [text y, w])
        | _, _ => []) := by
  unfold burstFile
  rw [rowsOf_rows]
  have h := (Verif.Props.C57_rows ch o v recs).2
  have hz : List.zipWith (fun y w => [text y, w]) (Model.Tables.forBurst ch o v recs).1 (Model.Tables.forBurst ch o v recs).2 =
      ((Model.Tables.forBurst ch o v recs).1.zip (Model.Tables.forBurst ch o v recs).2).map (fun p => [text p.1, p.2]) := by
    rw [List.zip, List.map_zipWith]
  rw [hz, h, List.map_flatMap]
  congr 1
  funext R
  cases v.year R <;> cases v.text R <;> simp

/-- Witness. -/
example : rowsOf (burstFile showNat (Model.Tables.forBurst (ρ := Nat) ⟨(· == ' '), Char.isAlphanum, Char.isDigit, id⟩
      ⟨some ["a".toList], false, true, true, true, false, none⟩ ⟨fun r => if r = 2 then none else some (r + 2000), fun _ => some "see  a cat4.".toList⟩ [1, 2, 3]))
    = [["2001".toList, "see".toList], ["2001".toList, "cat".toList], ["2003".toList, "see".toList], ["2003".toList, "cat".toList]] := by decide +kernel

section Nlp
open Verif.Model.Tables
variable {V : Type}

theorem mapM_some {A B : Type} (f : A → Option B) (g : A → B) (l : List A) (h : ∀ a ∈ l, f a = some (g a)) : l.mapM f = some (l.map g) := by
  induction l with
  | nil => rfl
  | cons a l ih =>
    rw [List.mapM_cons, h a (by simp), ih (fun b hb => h b (List.mem_cons_of_mem _ hb))]
    rfl

theorem keys_foldl_set (ex : List Str) (d : Dict Str (List V)) (hn : ex.Nodup) (hd : ∀ k ∈ ex, k ∉ Dict.keys d) :
    Dict.keys (ex.foldl (fun d c => d.set c []) d) = Dict.keys d ++ ex := by
  induction ex generalizing d with
  | nil => simp
  | cons a ex ih =>
    have hk : Dict.keys (d.set a []) = Dict.keys d ++ [a] := by rw [Dict.keys_set, if_neg (hd a (by simp))]
    rw [List.foldl_cons, ih _ (List.nodup_cons.1 hn).2, hk]
    · simp
    · intro k hk'
      rw [hk, List.mem_append, List.mem_singleton]
      rintro (h | rfl)
      · exact hd k (List.mem_cons_of_mem _ hk') h
      · exact (List.nodup_cons.1 hn).1 hk'

/-- The columns of the file of `forNLP`, in order. -/
def nlpHeader (copyright : Bool) (extra : List String) : List String :=
  ["id", "year", "title", "keywords", "abstract"] ++ (if copyright then ["copyright"] else []) ++
    extra.filter (fun c => c ∉ ["id", "year", "title", "keywords", "abstract"])

theorem keys_nlpInit (copyright : Bool) (extra : List String) (hn : extra.Nodup) (hc : copyright = true → "copyright" ∉ extra) :
    Dict.keys (nlpInit (V := V) copyright (extraList (some (extra.map String.toList)))) = (nlpHeader copyright extra).map String.toList := by
  have hn' : (extra.map String.toList).Nodup := List.Pairwise.map _ (fun a b h e => h (String.toList_inj.1 e)) hn
  have hex : extraList (some (extra.map String.toList)) =
      (extra.filter (fun c => c ∉ ["id", "year", "title", "keywords", "abstract"])).map String.toList := by
    rw [Verif.Props.extraList_nodup _ hn', List.filter_map]
    congr 1
    apply List.filter_congr
    intro c _
    have hb : builtins = ["id", "year", "title", "keywords", "abstract"].map String.toList := rfl
    rw [Function.comp_apply, hb]
    apply decide_eq_decide.2
    rw [List.mem_map]
    exact not_congr ⟨fun ⟨x, hx, e⟩ => String.toList_inj.1 e ▸ hx, fun h => ⟨c, h, rfl⟩⟩
  have hd : Dict.keys ((if copyright then Dict.set (builtins.map (fun b => (b, ([] : List V)))) "copyright".toList [] else builtins.map (fun b => (b, []))) : Dict Str (List V)) =
      (["id", "year", "title", "keywords", "abstract"] ++ (if copyright then ["copyright"] else [])).map String.toList := by
    cases copyright <;> rfl
  unfold nlpInit
  dsimp only
  rw [keys_foldl_set]
  · rw [hd, hex, ← List.map_append]
    rfl
  · rw [hex]
    exact List.Pairwise.map _ (fun a b h e => h (String.toList_inj.1 e)) (hn.filter _)
  · intro k hk
    rw [hex] at hk
    obtain ⟨c, hc', rfl⟩ := List.mem_map.1 hk
    rw [List.mem_filter] at hc'
    rw [hd, List.mem_map]
    rintro ⟨x, hx, e⟩
    rw [String.toList_inj.1 e] at hx
    rcases List.mem_append.1 hx with hx | hx
    · exact (of_decide_eq_true hc'.2) hx
    · cases copyright with
      | false => simp at hx
      | true =>
        simp only [if_true, List.mem_singleton] at hx
        exact hc rfl (hx ▸ hc'.1)

/-- C96: when no extra column is named twice, or named as the copyright column is, the file of `forNLP` has a header with the names of the columns and
then one row per record, in order, with the same cells as the returned columns. -/
theorem C96_nlp_partial (text : V → Str) (ch : Chars) (o : NlpOpts) (v : NlpView V ρ) (extra : List String) (hn : extra.Nodup)
    (hc : o.copyright = true → "copyright" ∉ extra) (recs : List ρ) :
    ∃ d t, forNLP ch o v (some (extra.map String.toList)) recs = some d ∧ nlpFile text d = some t ∧
      rowsOf t = (nlpHeader o.copyright extra).map String.toList ::
        recs.map (fun R => (nlpHeader o.copyright extra).map (fun c => text (Verif.Props.nlpCell ch o v R c))) := by
  obtain ⟨d, h1, -, h3⟩ := Verif.Props.C27_columns_partial ch o v extra hn hc recs
  have hkeys : Dict.keys d = (nlpHeader o.copyright extra).map String.toList := by
    obtain ⟨d', g1, g2, -⟩ := fill_general (nlpRow ch o v (extraList (some (extra.map String.toList)))) recs
      (nlpInit o.copyright (extraList (some (extra.map String.toList)))) (Verif.Props.nlpRow_mem ch o v _)
    have : d' = d := Option.some.inj (g1.symm.trans h1)
    rw [← this, g2, keys_nlpInit _ _ hn hc]
  have hcols : nlpColumns d = (nlpHeader o.copyright extra).map String.toList := by
    unfold nlpColumns
    rw [hkeys]
    unfold nlpHeader
    simp only [List.map_append, List.map_cons, List.map_nil, List.cons_append, List.nil_append, List.append_assoc]
    rw [List.erase_cons_head, List.erase_cons_tail (by decide), List.erase_cons_head, List.erase_cons_head, List.erase_cons_head]
  have hid : Dict.get? d "id".toList = some (recs.map (fun R => Verif.Props.nlpCell ch o v R "id")) := by
    apply h3
    rw [hkeys]
    exact List.mem_map_of_mem (by simp [nlpHeader])
  have hrow : ∀ i ∈ List.range recs.length, nlpFileRow text d i =
      some ((fun i => (nlpHeader o.copyright extra).map (fun c => text (((recs[i]?).map (fun R => Verif.Props.nlpCell ch o v R c)).getD (v.str [])))) i) := by
    intro i hi
    have hi := List.mem_range.1 hi
    unfold nlpFileRow
    rw [hcols, mapM_some _ (fun k => text (((recs[i]?).map (fun R => Verif.Props.nlpCell ch o v R (String.ofList k))).getD (v.str [])))]
    · rw [List.map_map]
      simp [Function.comp_def]
    · intro k hk
      obtain ⟨c, hc', rfl⟩ := List.mem_map.1 hk
      rw [h3 c (by rw [hkeys]; exact List.mem_map_of_mem hc')]
      simp [List.getElem?_map, List.getElem?_eq_getElem hi]
  refine ⟨d, _, h1, ?_, rowsOf_rows _⟩
  unfold nlpFile
  rw [hid, Option.getD_some, List.length_map, mapM_some _ _ _ hrow, hcols]
  dsimp only
  congr 3
  apply List.ext_getElem (by simp)
  intro i h1' h2'
  simp at h2'
  simp [List.getElem?_eq_getElem h2']

/-- Witness: an extra column with the name of a built-in one is not written twice. -/
example : ((forNLP (V := Str) (ρ := Nat) ⟨(· == ' '), Char.isAlphanum, Char.isDigit, id⟩ ⟨none, false, false, false, false, true, none⟩
    ⟨id, fun r => showNat r, fun _ => ['y'], fun _ => ['t'], fun _ => [['k'], ['l']], fun _ => "An eye, 2".toList,
      fun _ _ => .list [['p'], ['q']]⟩ (some ["title".toList, "p".toList]) [1, 2]).bind (nlpFile id)).map rowsOf
    = some [["id", "year", "title", "keywords", "abstract", "copyright", "p"].map String.toList,
        ["1", "y", "t", "k|l", "An eye, 2", "", "p|q"].map String.toList, ["2", "y", "t", "k|l", "An eye, 2", "", "p|q"].map String.toList] := by
  decide +kernel

/-- C96 (the code disagrees): if an extra column is named twice, rows of the file have cells of other records. Here two records with different
identifiers and DOIs: in the second row the DOI is that of the first record. -/
theorem C96_nlp_repeated :
    ∃ (text : Str → Str) (v : NlpView Str Nat) (d : Dict Str (List Str)) (t : Str),
      forNLP ⟨(· == ' '), Char.isAlphanum, Char.isDigit, id⟩ ⟨none, false, false, false, false, false, none⟩ v
        (some ["DI".toList, "DI".toList]) [1, 2] = some d ∧ nlpFile text d = some t ∧
      v.extra 1 "DI".toList = .val "10.1/a".toList ∧ v.extra 2 "DI".toList = .val "10.1/b".toList ∧
      rowsOf t = [["id", "year", "title", "keywords", "abstract", "DI"].map String.toList,
        ["one", "y", "t", "k", "", "10.1/a"].map String.toList, ["two", "y", "t", "k", "", "10.1/a"].map String.toList] := by
  refine ⟨id, ⟨id, fun r => if r = 1 then "one".toList else "two".toList, fun _ => ['y'], fun _ => ['t'], fun _ => [['k']], fun _ => [],
    fun r _ => if r = 1 then .val "10.1/a".toList else .val "10.1/b".toList⟩, _, _, rfl, rfl, rfl, rfl, ?_⟩
  exact rowsOf_rows _

end Nlp

/-! ## Windows -/

/-- C96 (the code disagrees): the files of `rankedSeries` and `timeSeries` are opened without `newline = ''`. On Windows, where `\n` becomes `\r\n`
in such a file, every row is followed by an empty one, if no value has a line end in it. -/
theorem C96_windows (text : α → Str) (tag : Str) (htag : '\n' ∉ tag) (htext : ∀ v, '\n' ∉ text v) (field : ρ → Option (FieldVal α)) (recs : List ρ) (gc gr gf : Bool)
    (lim : Option (List α)) (h : ¬ (gc = true ∧ gr = true)) :
    ∃ t, rankedFile text tag field recs gc gr gf lim = some t ∧ rowsOf (CsvMin.windows t) = (rowsOf t).flatMap (fun r => [r, []]) := by
  obtain ⟨t, l, h1, -, h3⟩ := C96_ranked text tag field recs gc gr gf lim h
  refine ⟨t, h1, ?_⟩
  have ht : t = CsvMin.rows CsvMin.excel ([tag, "count".toList] ::
      (sortedBy Prod.snd gf (countSeries field lim recs)).map (fun p => [text p.1, showNat p.2])) := by
    unfold rankedFile at h1
    rw [if_neg (by intro h'; rw [Bool.and_eq_true] at h'; exact h ⟨h'.2, h'.1⟩)] at h1
    exact (Option.some.inj h1).symm
  rw [ht, rowsOf_rows]
  refine CsvMin.read_windows _ CsvMin.excel_ok _ ?_
  intro r hr s hs
  rcases List.mem_cons.1 hr with rfl | hr
  · simp only [List.mem_cons, List.not_mem_nil, or_false] at hs
    rcases hs with rfl | rfl
    · exact htag
    · decide
  · obtain ⟨p, -, rfl⟩ := List.mem_map.1 hr
    simp only [List.mem_cons, List.not_mem_nil, or_false] at hs
    rcases hs with rfl | rfl
    · exact htext _
    · exact fun hm => by have := showNat_digits _ _ hm; revert this; decide

/-- Witness of the hypotheses, and of the rows. -/
example : (rankedFile (ρ := Nat) (α := Str) id "AF".toList (fun _ => some (.single "A".toList)) [1] true false true none).map (fun t => rowsOf (CsvMin.windows t))
    = some [["AF".toList, "count".toList], [], ["A".toList, "1".toList], []] := by decide +kernel

end Verif.Props.SeriesFiles
