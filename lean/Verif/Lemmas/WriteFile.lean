import Verif.Model.WriteFile
import Verif.Lemmas.Codec
import Verif.Lemmas.GraphPaths
import Verif.Lemmas.Medline

/-! # Lemmas about `writeFile` -/
set_option autoImplicit false
set_option linter.unusedSimpArgs false
namespace Verif.Lemmas.WriteFile
open Verif.Py Verif.Model Verif.Model.WriteFile Verif.Spec.Paths Verif.Lemmas.Paths Verif.Lemmas.GraphPaths

theorem fits_append (c : Codec) (a b : Str) : c.fits (a ++ b) = (c.fits a && c.fits b) := by
  cases c
  · rfl
  · exact List.all_append

theorem fits_flatten (c : Codec) (ps : List Str) : c.fits ps.flatten = ps.all c.fits := by
  induction ps with
  | nil => cases c <;> rfl
  | cons p ps ih => rw [List.flatten_cons, fits_append, ih, List.all_cons]

theorem putAll_ok (c : Codec) (d : Str) (ps : List Str) (h : c.fits ps.flatten = true) : putAll c d ps = (d ++ ps.flatten, none) := by
  induction ps generalizing d with
  | nil => simp [putAll]
  | cons p ps ih =>
    rw [List.flatten_cons, fits_append, Bool.and_eq_true] at h
    rw [putAll, if_pos h.1, ih _ h.2, List.flatten_cons, List.append_assoc]

theorem fits_utf8 (s : Str) : Codec.utf8.fits s = true := rfl

/-- The text of a record that can be written. -/
def Text (r : AnyRec) (t : Str) : Prop := ∃ ps, pieces r = .ok ps ∧ ps.flatten = t

theorem wosField_flatten (f : Str × List Str) : (wosField f).flatten = (Wos.fieldLines f).flatten := by
  obtain ⟨t, vs⟩ := f
  cases vs with
  | nil => rfl
  | cons v vs =>
    unfold wosField Wos.fieldLines
    simp only [List.flatten_append, List.flatten_cons, List.flatten_nil, List.append_nil, List.append_assoc]
    congr 3
    congr 1
    induction vs with
    | nil => rfl
    | cons w vs ih => simp only [List.flatMap_cons, List.flatten_append, List.map_cons, List.flatten_cons, ih]; simp

theorem text_wos (r : Wos.Rec) (t : Str) (h : Wos.writeRecord r = some t) : Text (.wos r) t := by
  unfold Wos.writeRecord at h
  split at h
  · simp at h
  · rename_i hb
    simp only [Option.some.injEq] at h
    refine ⟨r.fields.flatMap wosField ++ [['E', 'R', '\n']], by simp [pieces, hb], ?_⟩
    rw [← h, List.flatten_append]
    congr 1
    induction r.fields with
    | nil => rfl
    | cons f fs ih => rw [List.flatMap_cons, List.flatten_append, ih, wosField_flatten, List.flatMap_cons, List.flatten_append]

theorem medlineFields_flatten (d : Medline.Fields) : (medlineFields d).flatten = Medline.writeFields d := by
  unfold medlineFields Medline.writeFields
  generalize Medline.authTags d = A
  induction d with
  | nil => rfl
  | cons f d ih =>
    rw [List.flatMap_cons, List.flatten_append, List.flatMap_cons, ih]
    congr 1
    split
    · rfl
    · induction f.2 with
      | nil => rfl
      | cons v vs ihv =>
        rw [List.flatMap_cons, List.flatten_append, List.flatMap_cons, ihv]
        congr 1
        split <;> simp

theorem text_medline (r : Medline.Rec) (t : Str) (h : Medline.writeRecord r = some t) : Text (.medline r) t := by
  unfold Medline.writeRecord at h
  split at h
  · simp at h
  · rename_i hb
    simp only [Option.some.injEq] at h
    exact ⟨medlineFields r.fields, by simp [pieces, hb], by rw [medlineFields_flatten, h]⟩

theorem text_scopus (r : Scopus.Rec) (t : Str) (h : Scopus.writeRecord r = some t) : Text (.scopus r) t :=
  ⟨[t], by simp [pieces, h], by simp⟩

/-- The texts of several records, each followed by an empty line's end. -/
def block (ts : List Str) : Str := (ts.map (· ++ ['\n'])).flatten

theorem block_cons (t : Str) (ts : List Str) : block (t :: ts) = t ++ ['\n'] ++ block ts := by
  simp [block]

theorem records_ok (c : Codec) (d : Str) (rs : List AnyRec) (ts : List Str) (h : List.Forall₂ Text rs ts) (hf : c.fits (block ts) = true)
    (rest : List AnyRec) : records c d (rs ++ rest) = records c (d ++ block ts) rest := by
  induction h generalizing d with
  | nil => simp [block]
  | @cons r t rs ts hr _ ih =>
    obtain ⟨ps, h1, h2⟩ := hr
    rw [block_cons, fits_append, Bool.and_eq_true] at hf
    rw [List.cons_append, records, h1]
    simp only
    rw [putAll_ok c d (ps ++ [['\n']]) (by rw [List.flatten_append, h2]; simpa using hf.1)]
    simp only
    rw [ih _ hf.2, block_cons, List.flatten_append, h2]
    simp

/-- All records written. -/
theorem written_ok (c : Codec) (types : List String) (rs : List AnyRec) (ts : List Str) (h : List.Forall₂ Text rs ts)
    (hf : c.fits ((header types).flatten ++ block ts ++ (footer types).flatten) = true) :
    written c types rs = ((header types).flatten ++ block ts ++ (footer types).flatten, none) := by
  rw [fits_append, fits_append, Bool.and_eq_true, Bool.and_eq_true] at hf
  unfold written
  rw [putAll_ok c [] _ hf.1.1]
  simp only
  have := records_ok c ([] ++ (header types).flatten) rs ts h hf.1.2 []
  rw [List.append_nil] at this
  rw [this, records]
  simp only
  rw [putAll_ok c _ _ hf.2]
  simp

/-- The records up to one that raises. -/
theorem written_stop (c : Codec) (types : List String) (rs : List AnyRec) (ts : List Str) (h : List.Forall₂ Text rs ts)
    (hf : c.fits ((header types).flatten ++ block ts) = true) (r : AnyRec) (e : WErr) (he : pieces r = .error e) (rest : List AnyRec) :
    written c types (rs ++ r :: rest) = ((header types).flatten ++ block ts, some e) := by
  rw [fits_append, Bool.and_eq_true] at hf
  unfold written
  rw [putAll_ok c [] _ hf.1]
  simp only
  rw [records_ok c ([] ++ (header types).flatten) rs ts h hf.2, records, he]
  simp

theorem forall₂_map {α : Type} (f : α → AnyRec) (g : α → Option Str) (hfg : ∀ r t, g r = some t → Text (f r) t) (rs : List α) (ts : List Str)
    (h : rs.mapM g = some ts) : List.Forall₂ Text (rs.map f) ts := by
  induction rs generalizing ts with
  | nil => simp at h; subst h; exact .nil
  | cons r rs ih =>
    rw [List.mapM_cons] at h
    cases hr : g r with
    | none => rw [hr] at h; simp at h
    | some t =>
      cases hrs : rs.mapM g with
      | none => rw [hr, hrs] at h; simp at h
      | some ts' =>
        rw [hr, hrs] at h
        simp at h
        subst h
        exact .cons (hfg r t hr) (ih ts' hrs)

/-! ## Characters of a Medline record -/

/-- All characters satisfy `P`. -/
def Chars (P : Char → Prop) (s : Str) : Prop := ∀ c ∈ s, P c

theorem entry_chars (P : Char → Prop) (hP : ∀ c ∈ " -\n".toList, P c) (t v : Str) (ht : Chars P t) (hv : Chars P v) : Chars P (Medline.entry t v) := by
  intro c h
  unfold Medline.entry at h
  simp only [List.mem_append, List.mem_replicate] at h
  rcases h with (((h | h) | h) | h) | h
  · exact ht c h
  · exact hP c (by rw [h.2]; decide)
  · refine hP c ?_
    have : c = '-' ∨ c = ' ' := by simpa using h
    rcases this with rfl | rfl <;> decide
  · rcases Verif.Lemmas.Medline.join_mem _ _ _ h with h | ⟨p, hp, h⟩
    · refine hP c ?_
      have : c = '\n' ∨ c = ' ' := by simpa using h
      rcases this with rfl | rfl <;> decide
    · apply hv
      rw [← Str.join_split ['\n'] v (by simp)]
      exact Verif.Lemmas.Medline.mem_join _ _ p hp _ h
  · refine hP c ?_
    simp at h; subst h; decide

theorem push_get (d : Medline.Fields) (t v k : Str) (x : Str) (hx : x ∈ (Dict.get? (Medline.push d t v) k).getD []) :
    x ∈ (Dict.get? d k).getD [] ∨ x = v := by
  unfold Medline.push at hx
  by_cases h : k = t
  · subst h
    rw [Dict.get?_set_self] at hx
    simpa using hx
  · rw [Dict.get?_set_ne _ _ (Ne.symm h)] at hx
    exact Or.inl hx

theorem authTags_chars (P : Char → Prop) (hP : ∀ c ∈ " -\n:ADUI".toList, P c) (d : Medline.Fields) (hd : ∀ f ∈ d, ∀ v ∈ f.2, Chars P v) (k x : Str)
    (hx : x ∈ (Dict.get? (Medline.authTags d) k).getD []) : Chars P x := by
  have hP' : ∀ c ∈ " -\n".toList, P c := by
    intro c hc
    apply hP
    have : c = ' ' ∨ c = '-' ∨ c = '\n' := by simpa using hc
    rcases this with rfl | rfl | rfl <;> decide
  have hval : ∀ t, ∀ v ∈ (Dict.get? d t).getD [], Chars P v := by
    intro t v hv
    cases hg : Dict.get? d t with
    | none => rw [hg] at hv; simp at hv
    | some vs => rw [hg] at hv; exact hd (t, vs) (Dict.mem_of_get? hg) v hv
  have hinner : ∀ (t : Str), Chars P t → ∀ (vs : List Str), (∀ v ∈ vs, Chars P v) → ∀ (acc : Medline.Fields),
      (∀ k x, x ∈ (Dict.get? acc k).getD [] → Chars P x) → ∀ k x,
      x ∈ (Dict.get? (vs.foldl (fun acc val =>
        let split := Str.split " : ".toList val
        Medline.push acc (split.headD []) (Medline.entry t (Str.join " : ".toList split.tail))) acc) k).getD [] → Chars P x := by
    intro t ht vs
    induction vs with
    | nil => intro _ acc hacc; exact hacc
    | cons v vs ih =>
      intro hv acc hacc
      rw [List.foldl_cons]
      refine ih (fun w hw => hv w (by simp [hw])) _ ?_
      intro k x hx
      rcases push_get _ _ _ _ _ hx with hx | rfl
      · exact hacc k x hx
      · apply entry_chars P hP' _ _ ht
        intro c hc
        rcases Verif.Lemmas.Medline.join_mem _ _ _ hc with hc | ⟨p, hp, hc⟩
        · apply hP
          have : c = ' ' ∨ c = ':' ∨ c = ' ' := by simpa using hc
          rcases this with rfl | rfl | rfl <;> decide
        · apply hv v (by simp)
          rw [← Str.join_split " : ".toList v (by decide)]
          exact Verif.Lemmas.Medline.mem_join _ _ p (List.mem_of_mem_tail hp) _ hc
  have hkeys : ∀ t ∈ Medline.authorBasedTags, Chars P t := by
    intro t ht c hc
    apply hP
    simp only [Medline.authorBasedTags, List.mem_cons, List.not_mem_nil, or_false] at ht
    rcases ht with rfl | rfl
    · have : c = 'A' ∨ c = 'D' := by simpa using hc
      rcases this with rfl | rfl <;> decide
    · have : c = 'A' ∨ c = 'U' ∨ c = 'I' ∨ c = 'D' := by simpa using hc
      rcases this with rfl | rfl | rfl | rfl <;> decide
  have houter : ∀ (tags : List Str), (∀ t ∈ tags, Chars P t) → ∀ (acc : Medline.Fields),
      (∀ k x, x ∈ (Dict.get? acc k).getD [] → Chars P x) → ∀ k x,
      x ∈ (Dict.get? (tags.foldl (fun acc tag => ((Dict.get? d tag).getD []).foldl (fun acc val =>
        let split := Str.split " : ".toList val
        Medline.push acc (split.headD []) (Medline.entry tag (Str.join " : ".toList split.tail))) acc) acc) k).getD [] → Chars P x := by
    intro tags
    induction tags with
    | nil => intro _ acc hacc; exact hacc
    | cons t tags ih =>
      intro ht acc hacc
      rw [List.foldl_cons]
      exact ih (fun u hu => ht u (by simp [hu])) _ (hinner t (ht t (by simp)) _ (hval t) acc hacc)
  exact houter _ hkeys [] (by intro k x hx; simp [Dict.get?] at hx) k x hx

/-- The text of a record has the characters of its fields and those of the format. -/
theorem writeFields_chars (P : Char → Prop) (hP : ∀ c ∈ " -\n:ADUI".toList, P c) (d : Medline.Fields)
    (hd : ∀ f ∈ d, Chars P f.1 ∧ ∀ v ∈ f.2, Chars P v) : Chars P (Medline.writeFields d) := by
  have hP' : ∀ c ∈ " -\n".toList, P c := by
    intro c hc
    apply hP
    have : c = ' ' ∨ c = '-' ∨ c = '\n' := by simpa using hc
    rcases this with rfl | rfl | rfl <;> decide
  intro c hc
  unfold Medline.writeFields at hc
  obtain ⟨f, hf, hc⟩ := List.mem_flatMap.1 hc
  split at hc
  · simp at hc
  · obtain ⟨v, hv, hc⟩ := List.mem_flatMap.1 hc
    rcases List.mem_append.1 hc with hc | hc
    · exact entry_chars P hP' _ _ (hd f hf).1 ((hd f hf).2 v hv) c hc
    · split at hc
      · obtain ⟨x, hx, hc⟩ := List.mem_flatten.1 hc
        exact authTags_chars P hP d (fun f hf => (hd f hf).2) v x hx c hc
      · simp at hc

/-! ## Default names -/

theorem splitext_txt (stem : Str) (hs : '/' ∉ stem) (hd : ∃ c ∈ stem, c ≠ '.') : Path.splitext (stem ++ ".txt".toList) = (stem, ".txt".toList) := by
  have htail : Path.tail (stem ++ ".txt".toList) = stem ++ ".txt".toList := by
    have := tail_append [] (stem ++ ".txt".toList) (by simp [hs]) (Or.inl rfl)
    simpa using this
  unfold Path.splitext
  rw [htail]
  have hrev : (stem ++ ".txt".toList).reverse = ['t', 'x', 't', '.'] ++ stem.reverse := by rw [List.reverse_append]; rfl
  have htw : (stem ++ ".txt".toList).reverse.takeWhile (fun c => c ≠ '.') = ['t', 'x', 't'] := by
    rw [hrev]; simp [List.takeWhile]
  rw [htw]
  have hst : ((stem ++ ".txt".toList).reverse.drop ((['t', 'x', 't'] : Str).length + 1)).reverse = stem := by
    rw [hrev]; simp
  dsimp only
  rw [hst, if_pos]
  · have : (stem ++ ".txt".toList).length - ((['t', 'x', 't'] : Str).length + 1) = stem.length := by simp
    rw [this, List.take_left' rfl, List.drop_left' rfl]
  · refine ⟨by simp, ?_⟩
    obtain ⟨c, h1, h2⟩ := hd
    rw [List.any_eq_true]
    exact ⟨c, h1, by simpa using h2⟩

/-- An absolute path has no part `..` in its normal form. -/
theorem norm_abs (l : List Str) : ['.', '.'] ∉ l.foldl (Path.normStep true) [] := by
  induction l using List.reverseRecOn with
  | nil => simp
  | append_singleton l c ih =>
    rw [List.foldl_append, List.foldl_cons, List.foldl_nil]
    generalize l.foldl (Path.normStep true) [] = nc at ih
    unfold Path.normStep
    split
    · exact ih
    · split
      · rename_i h
        intro hm
        rcases List.mem_append.1 hm with hm | hm
        · exact ih hm
        · simp only [List.mem_singleton] at hm
          subst hm
          rcases h with h | h | h
          · exact h rfl
          · simp at h
          · exact ih (List.mem_of_getLast? h)
      · exact fun hm => ih (List.mem_of_mem_dropLast hm)

theorem split_replicate (k : Nat) (s : Str) (x : Str) (h : x ∈ Str.split ['/'] (List.replicate k '/' ++ s)) : x = [] ∨ x ∈ Str.split ['/'] s := by
  induction k with
  | zero => right; simpa using h
  | succ k ih =>
    rw [List.replicate_succ, List.cons_append] at h
    have := split_append '/' [] (List.replicate k '/' ++ s)
    rw [List.nil_append] at this
    rw [this, split_nil] at h
    rcases List.mem_append.1 h with h | h
    · left; simpa using h
    · exact ih h

theorem abspath_parts (cwd : Loc) (p : Str) : ['.', '.'] ∉ Str.split ['/'] (Path.abspath cwd p) := by
  have hj : (Path.join (Path.cwdText cwd) p).head? = some '/' := by
    unfold Path.join
    split
    · assumption
    · split <;> rfl
  unfold Path.abspath Path.normpath
  generalize Path.join (Path.cwdText cwd) p = q at hj
  have hpos : Path.slashes q ≠ 0 := fun h0 => (slashes_pos q).1 h0 hj
  dsimp only
  rw [if_neg (by
    intro e
    have := (List.append_eq_nil_iff.1 e).1
    rw [List.replicate_eq_nil_iff] at this
    exact hpos this)]
  intro hm
  rcases split_replicate _ _ _ hm with hm | hm
  · simp at hm
  · have hns := normParts_noSlash q
    by_cases h0 : Path.normParts q = []
    · rw [h0] at hm
      simp [Str.join, split_nil] at hm
    · rw [Str.split_join_char '/' _ h0 hns] at hm
      revert hm
      unfold Path.normParts
      rw [hj]
      exact norm_abs _

/-- The beginning of a path with something appended to its last part. -/
theorem split_take (s x : Str) (k : Nat) (hx : '/' ∉ x) : ∃ l q, Str.split ['/'] (s.take k ++ x) = l ++ [q ++ x] ∧ '/' ∉ q ∧ ∀ c ∈ l, c ∈ Str.split ['/'] s := by
  have hdec : ∀ t : Str, '/' ∉ t ∨ ∃ A q, t = A ++ '/' :: q ∧ '/' ∉ q := by
    intro t
    induction t using List.reverseRecOn with
    | nil => left; simp
    | append_singleton t c ih =>
      by_cases hc : c = '/'
      · right; exact ⟨t, [], by rw [hc], by simp⟩
      · rcases ih with h | ⟨A, q, rfl, h⟩
        · left; simp [h, Ne.symm hc]
        · right; exact ⟨A, q ++ [c], by simp, by simp [h, Ne.symm hc]⟩
  rcases hdec (s.take k) with h | ⟨A, q, h, hq⟩
  · exact ⟨[], s.take k, by rw [split_single _ _ (by simp [h, hx])]; rfl, h, by simp⟩
  · refine ⟨Str.split ['/'] A, q, ?_, hq, ?_⟩
    · rw [h, List.append_assoc, List.cons_append, split_append, split_single '/' (q ++ x) (by simp [hq, hx])]
    · intro c hc
      rw [← List.take_append_drop k s, h, List.append_assoc, List.cons_append, split_append]
      exact List.mem_append_left _ hc

theorem foldl_down (base : Loc) (l : List Str) (h : ['.', '.'] ∉ l) : base <+: l.foldl walkStep base := by
  induction l using List.reverseRecOn with
  | nil => exact List.prefix_rfl
  | append_singleton l c ih =>
    rw [List.foldl_append, List.foldl_cons, List.foldl_nil]
    have h1 := ih (fun hm => h (by simp [hm]))
    unfold walkStep
    split
    · exact h1
    · rw [if_neg (fun e => h (by simp [e]))]
      exact h1.trans (List.prefix_append _ _)

end Verif.Lemmas.WriteFile
