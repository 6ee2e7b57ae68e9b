import Verif.Model.CollectionAdd
import Verif.Props.Wos
import Verif.Props.Copyright

/-! # C82: sums of collections and their binary form. C84: the copyright statements of a collection -/
set_option autoImplicit false
set_option linter.unusedSimpArgs false
namespace Verif.Props.CollectionAdd
open Verif.Py Verif.Model Verif.Model.CollectionAdd

section add
variable {α κ ε : Type} [DecidableEq α] [DecidableEq κ]

theorem addAll_ok (isInst : α → Bool) (tyName : α → String) (xs : List α) : ∀ (c : Coll α κ ε), c.items.Nodup →
    (∀ x ∈ xs, isInst x = true) → ∃ c', addAll isInst tyName c xs = .ok c' ∧ (∀ x, x ∈ c'.items ↔ x ∈ c.items ∨ x ∈ xs) ∧ c'.items.Nodup ∧
      (∀ t, t ∈ c'.types ↔ t ∈ c.types ∨ ∃ x ∈ xs, t = tyName x) ∧ c'.name = c.name ∧ c'.cls = c.cls ∧ c'.bad = c.bad ∧ c'.errors = c.errors := by
  induction xs with
  | nil => intro c hc _; exact ⟨c, rfl, by simp, hc, by simp, rfl, rfl, rfl, rfl⟩
  | cons x xs ih =>
    intro c hc hx
    unfold addAll Coll.add
    rw [if_pos (hx x List.mem_cons_self)]
    dsimp only
    obtain ⟨c', h1, h2, h3, h4, h5, h6, h7, h8⟩ := ih { c with items := PSet.add c.items x, types := PSet.add c.types (tyName x) } (PSet.nodup_add hc x)
      (fun y hy => hx y (List.mem_cons_of_mem _ hy))
    refine ⟨c', h1, ?_, h3, ?_, h5, h6, h7, h8⟩
    · intro y
      rw [h2]
      simp only [PSet.mem_add, List.mem_cons]
      tauto
    · intro t
      rw [h4]
      simp only [PSet.mem_add, List.exists_mem_cons_iff]
      tauto

theorem addAll_error (isInst : α → Bool) (tyName : α → String) (xs : List α) : ∀ (c : Coll α κ ε), (∃ x ∈ xs, isInst x = false) →
    addAll isInst tyName c xs = .error .collectionTypeError := by
  induction xs with
  | nil => rintro c ⟨x, hx, -⟩; cases hx
  | cons x xs ih =>
    intro c hx
    unfold addAll Coll.add
    by_cases h : isInst x = true
    · rw [if_pos h]
      dsimp only
      apply ih
      obtain ⟨y, hy, hyf⟩ := hx
      rcases List.mem_cons.1 hy with rfl | hy
      · rw [h] at hyf; cases hyf
      · exact ⟨y, hy, hyf⟩
    · rw [if_neg h]

/-- **C82 (part).** The sum of a collection of records and anything that contains records has exactly the records of the two, each once. Its name is the two names
with a space between them, and its types are those of the records. What is missing: errors (`C82_errors_lost`). -/
theorem C82_sum_partial (isInst : α → Bool) (tyName : α → String) (a : Coll α κ ε) (otherName : String) (other : List α)
    (ha : ∀ x ∈ a.items, isInst x = true) (ho : ∀ x ∈ other, isInst x = true) :
    ∃ c, addColl isInst tyName a otherName other = .ok c ∧ (∀ x, x ∈ c.items ↔ x ∈ a.items ∨ x ∈ other) ∧ c.items.Nodup ∧
      (∀ t, t ∈ c.types ↔ ∃ x ∈ c.items, t = tyName x) ∧ c.name = a.name ++ " " ++ otherName ∧ c.cls = "RecordCollection" := by
  unfold addColl
  obtain ⟨c, h1, h2, h3, h4, h5, h6, -, -⟩ := addAll_ok isInst tyName a.items (Coll.fresh "RecordCollection" [] (a.name ++ " " ++ otherName) : Coll α κ ε)
    (by simp [Coll.fresh, PSet.ofList]) ha
  obtain ⟨d, g1, g2, g3, g4, g5, g6, -, -⟩ := addAll_ok isInst tyName other c h3 ho
  rw [h1]
  refine ⟨d, g1, ?_, g3, ?_, g5.trans h5, g6.trans h6⟩
  · intro x
    rw [g2, h2]
    simp [Coll.fresh, PSet.ofList]
  · intro t
    rw [g4, h4]
    simp only [g2, h2, Coll.fresh, PSet.ofList, List.foldl_nil, List.not_mem_nil, false_or]
    constructor
    · rintro (⟨x, hx, e⟩ | ⟨x, hx, e⟩)
      · exact ⟨x, .inl hx, e⟩
      · exact ⟨x, .inr hx, e⟩
    · rintro ⟨x, hx | hx, e⟩
      · exact .inl ⟨x, hx, e⟩
      · exact .inr ⟨x, hx, e⟩

/-- **C82.** When something that is no record is among them, the sum raises. -/
theorem C82_type_error (isInst : α → Bool) (tyName : α → String) (a : Coll α κ ε) (otherName : String) (other : List α)
    (h : ∃ x ∈ a.items ++ other, isInst x = false) : addColl isInst tyName a otherName other = .error .collectionTypeError := by
  unfold addColl
  by_cases ha : ∃ x ∈ a.items, isInst x = false
  · rw [addAll_error isInst tyName _ _ ha]
  · have ha' : ∀ x ∈ a.items, isInst x = true := by
      intro x hx
      by_contra hc
      exact ha ⟨x, hx, by simpa using hc⟩
    obtain ⟨c, h1, -⟩ := addAll_ok isInst tyName a.items (Coll.fresh "RecordCollection" [] (a.name ++ " " ++ otherName) : Coll α κ ε)
      (by simp [Coll.fresh, PSet.ofList]) ha'
    rw [h1]
    dsimp only
    apply addAll_error
    obtain ⟨x, hx, hf⟩ := h
    rcases List.mem_append.1 hx with hx | hx
    · rw [ha' x hx] at hf; cases hf
    · exact ⟨x, hx, hf⟩

/-- **C82 is false of the code** for errors: the sum is never bad and has no errors, whatever the operands have. -/
theorem C82_errors_lost (isInst : α → Bool) (tyName : α → String) (a : Coll α κ ε) (otherName : String) (other : List α) (c : Coll α κ ε)
    (h : addColl isInst tyName a otherName other = .ok c) : c.bad = false ∧ c.errors = [] := by
  have hall : ∀ x ∈ a.items ++ other, isInst x = true := by
    intro x hx
    by_contra hc
    rw [C82_type_error isInst tyName a otherName other ⟨x, hx, by simpa using hc⟩] at h
    cases h
  unfold addColl at h
  obtain ⟨c1, h1, -, h3, -, -, -, h7, h8⟩ := addAll_ok isInst tyName a.items (Coll.fresh "RecordCollection" [] (a.name ++ " " ++ otherName) : Coll α κ ε)
    (by simp [Coll.fresh, PSet.ofList]) (fun x hx => hall x (by simp [hx]))
  obtain ⟨d, g1, -, -, -, -, -, g7, g8⟩ := addAll_ok isInst tyName other c1 h3 (fun x hx => hall x (by simp [hx]))
  rw [h1] at h
  dsimp only at h
  rw [g1] at h
  obtain rfl : d = c := by injection h
  exact ⟨g7.trans h7, g8.trans h8⟩

end add

def a1 : Coll Nat String String := ⟨"RecordCollection", [1, 2], ["W"], "a", true, [("f", "broken")]⟩
example : (addColl (fun _ => true) (fun n => if n < 3 then "W" else "S") a1 "b" [2, 5]).toOption =
    some ⟨"RecordCollection", [1, 2, 5], ["W", "S"], "a b", false, []⟩ := by decide +kernel
example : (addColl (fun n => decide (n < 5)) (fun _ => "W") a1 "b" [2, 5]).toOption = none := by decide +kernel

/-! ## The binary form -/

theorem mapM_map {β γ : Type} (f : β → Option γ) (l : List β) : (l.map f).mapM id = l.mapM f := by
  induction l with
  | nil => rfl
  | cons x l ih => rw [List.map_cons, List.mapM_cons, List.mapM_cons, ih]; rfl

theorem join_lines (ts : List Str) : ts ≠ [] → (ts.map (· ++ ['\n'])).flatten = Str.join ['\n'] ts ++ ['\n'] := by
  induction ts with
  | nil => intro h; exact absurd rfl h
  | cons t ts ih =>
    intro _
    cases ts with
    | nil => simp [Str.join]
    | cons u us => rw [List.map_cons, List.flatten_cons, ih (by simp), Str.join_cons ['\n'] t (u :: us) (by simp)]; simp

/-- **C82.** The binary form of a collection of WOS records is what `writeFile` writes between the header and the end mark. It exists exactly when the file can be written. -/
theorem C82_bytes (rs : List Wos.Rec) :
    Wos.writeFile rs = (bytesText (rs.map Wos.writeRecord)).map (fun t => "﻿FN Thomson Reuters Web of Science™\nVR 1.0\n".toList ++ t ++ "\nEF".toList) := by
  cases rs with
  | nil => rfl
  | cons r rs =>
    unfold Wos.writeFile
    rw [if_neg (by simp)]
    have hb : bytesText ((r :: rs).map Wos.writeRecord) = ((r :: rs).mapM Wos.writeRecord).map (Str.join ['\n']) := by
      rw [← mapM_map]; rfl
    rw [hb]
    cases h : (r :: rs).mapM Wos.writeRecord with
    | none => rfl
    | some ts =>
      have hne : ts ≠ [] := by
        rintro rfl
        rw [List.mapM_cons] at h
        cases hr : Wos.writeRecord r with
        | none => rw [hr] at h; cases h
        | some t =>
          rw [hr] at h
          cases hrs : rs.mapM Wos.writeRecord with
          | none => rw [hrs] at h; cases h
          | some us => rw [hrs] at h; cases h
      simp only [Option.map_some]
      rw [join_lines ts hne]
      congr 1
      simp

/-- So, with the header and the end mark, the binary form is read back as the same records. The hypotheses are those of `C30_round_trip`, met by the records beside it. -/
theorem C82_bytes_reread (ws : Char → Bool) (hws : ws '\n' = true) (hE : ws 'E' = false) (rs : List Wos.Rec) (hne : rs ≠ [])
    (hg : ∀ r ∈ rs, WosFiles.Good ws r) (hd : WosFiles.Distinct rs) :
    ∃ t, bytesText (rs.map Wos.writeRecord) = some t ∧
      Wos.wosParser ws ("﻿FN Thomson Reuters Web of Science™\nVR 1.0\n".toList ++ t ++ "\nEF".toList) = some ⟨rs, none, false⟩ := by
  obtain ⟨text, h1, h2, -⟩ := WosFiles.C30_round_trip ws hws hE rs hne hg hd
  rw [C82_bytes] at h1
  cases hb : bytesText (rs.map Wos.writeRecord) with
  | none => rw [hb] at h1; cases h1
  | some t =>
    rw [hb] at h1
    obtain rfl := Option.some.inj h1
    exact ⟨t, rfl, h2⟩

/-! ## C84 -/

theorem find_eq (ws digit : Char → Bool) (as : List Str) : ∀ (ret : List Str), ret.Nodup →
    (findProbableCopyright ws digit ret as).Nodup ∧
    ∀ c, c ∈ findProbableCopyright ws digit ret as ↔ c ∈ ret ∨ (c ≠ [] ∧ ∃ a ∈ as, (Tables.findCopyright ws digit a).2 = c) := by
  induction as with
  | nil => intro ret h; exact ⟨h, by simp [findProbableCopyright]⟩
  | cons a as ih =>
    intro ret h
    unfold findProbableCopyright
    dsimp only
    by_cases ha : (Tables.findCopyright ws digit a).2 = []
    · rw [if_neg (by simpa using ha)]
      obtain ⟨h1, h2⟩ := ih ret h
      refine ⟨h1, ?_⟩
      intro c
      rw [h2]
      simp only [List.exists_mem_cons_iff]
      constructor
      · rintro (h | ⟨h, h'⟩)
        · exact .inl h
        · exact .inr ⟨h, .inr h'⟩
      · rintro (h | ⟨h, h' | h'⟩)
        · exact .inl h
        · exact absurd (h'.symm.trans ha) h
        · exact .inr ⟨h, h'⟩
    · rw [if_pos ha]
      obtain ⟨h1, h2⟩ := ih _ (PSet.nodup_add h _)
      refine ⟨h1, ?_⟩
      intro c
      rw [h2, PSet.mem_add]
      simp only [List.exists_mem_cons_iff]
      constructor
      · rintro ((h | h) | ⟨h, h'⟩)
        · exact .inr ⟨by rw [h]; exact ha, .inl h.symm⟩
        · exact .inl h
        · exact .inr ⟨h, .inr h'⟩
      · rintro (h | ⟨h, h' | h'⟩)
        · exact .inl (.inr h)
        · exact .inl (.inl h'.symm)
        · exact .inr ⟨h, h'⟩

/-- **C84.** `findProbableCopyright` gives every copyright statement of the abstracts once and nothing else. What a copyright statement is, is said in
`Spec/Copyright`. Each is the end of an abstract, but for white space. -/
theorem C84_copyrights (ws digit : Char → Bool) (hsp : digit ' ' = false) (abstracts : List Str) :
    (findProbableCopyright ws digit [] abstracts).Nodup ∧
    (∀ c, c ∈ findProbableCopyright ws digit [] abstracts ↔ ∃ a ∈ abstracts, Spec.Copyright.Statement ws digit a c) ∧
    (∀ c ∈ findProbableCopyright ws digit [] abstracts, ∃ a ∈ abstracts, ∃ text tail, a = text ++ c ++ tail ∧ ∀ x ∈ tail, ws x = true) := by
  obtain ⟨h1, h2⟩ := find_eq ws digit abstracts [] List.nodup_nil
  refine ⟨h1, fun c => ?_, ?_⟩
  · rw [h2]
    simp only [← C27_copyright_statement ws digit hsp, List.not_mem_nil, false_or]
    constructor
    · rintro ⟨h, a, ha, e⟩; exact ⟨a, ha, h, e⟩
    · rintro ⟨a, ha, h, e⟩; exact ⟨h, a, ha, e⟩
  · intro c hc
    rw [h2] at hc
    rcases hc with hc | ⟨-, a, ha, rfl⟩
    · cases hc
    · obtain ⟨⟨tail, e, ht⟩, -⟩ := C27_copyright_lossless ws digit a
      exact ⟨a, ha, _, tail, e.symm, ht⟩

/-- **C84.** The order of the records does not matter, and neither do repetitions. -/
theorem C84_same_set (ws digit : Char → Bool) (as bs : List Str) (h : ∀ a, a ∈ as ↔ a ∈ bs) (c : Str) :
    c ∈ findProbableCopyright ws digit [] as ↔ c ∈ findProbableCopyright ws digit [] bs := by
  rw [(find_eq ws digit as [] List.nodup_nil).2, (find_eq ws digit bs [] List.nodup_nil).2]
  simp only [h]

example : findProbableCopyright (fun c => c = ' ') (fun c => '0' ≤ c ∧ c ≤ '9') []
    ["We did it. (C) 2001 Elsevier".toList, "No notice".toList, "More. Copyright 2002 ACM ".toList, "Also. (C) 2001 Elsevier".toList, []] =
    [" (C) 2001 Elsevier".toList, " Copyright 2002 ACM".toList] := by decide +kernel

end Verif.Props.CollectionAdd
