import Verif.Model.BibEntry
import Verif.Spec.BibEntry
import Verif.Props.Bib

/-! # C65: entries of bib files -/
set_option autoImplicit false
set_option linter.unusedSimpArgs false
namespace Verif.Props.BibEntry
open Verif.Py Verif.Model.Bib Verif.Model.BibEntry Verif.Spec.BibEntry

/-! ## Specification -/

/-- The lines of a text. -/
def linesOf (s : Str) : List Str := Str.split "\n".toList s

/-! ## Fields -/

/-- C65, fields: the fields listed are all of the record, or with the restriction exactly the common ones it has. -/
theorem C65_fields (restricted : Bool) (r : Rec) : Listed restricted r (tagsIter restricted r) := by
  unfold Listed tagsIter
  cases restricted
  · simp
  · simp only [if_true]
    rw [show common = commonRecordFields from rfl]
    constructor
    · have hnd : commonRecordFields.Nodup := by decide +kernel
      generalize commonRecordFields = cs
      induction cs with
      | nil => simp
      | cons c cs ih =>
        have hmem : ∀ p ∈ cs.filterMap (fun k => (r.field k).map (fun v => (k, v))), p.1 ∈ cs := by
          intro p hp
          obtain ⟨k, hk, h⟩ := List.mem_filterMap.1 hp
          rcases hf : r.field k with _ | v
          · rw [hf] at h; simp at h
          · rw [hf] at h; simp only [Option.map_some, Option.some.injEq] at h; rw [← h]; exact hk
        rcases h : r.field c with _ | v
        · simp only [List.filterMap_cons, h, Option.map_none]
          exact ih.imp (fun h => h.trans (List.sublist_cons_self _ _))
        · simp only [List.filterMap_cons, h, Option.map_some]
          rw [List.pairwise_cons]
          refine ⟨fun p hp => ?_, ih.imp (fun h => h.trans (List.sublist_cons_self _ _))⟩
          exact (List.singleton_sublist.2 (hmem p hp)).cons_cons c
    · intro k v
      rw [List.mem_filterMap]
      constructor
      · rintro ⟨c, hc, h⟩
        rcases hf : r.field c with _ | w
        · rw [hf] at h; simp at h
        · rw [hf] at h; simp only [Option.map_some, Option.some.injEq, Prod.mk.injEq] at h
          obtain ⟨rfl, rfl⟩ := h; exact ⟨hc, hf⟩
      · rintro ⟨hc, hf⟩; exact ⟨k, hc, by simp [hf]⟩

theorem mapM_plain (m : Int) (l : List (Str × Value)) (es : List Str) (h : l.mapM (plainEntry m) = Except.ok es) :
    ∃ vs : List Str, vs.length = l.length ∧ (l.zip vs).map (fun p => p.1.1 ++ " = ".toList ++ p.2 ++ ",".toList) = es ∧
      ∀ p ∈ l.zip vs, bibFormatter p.1.2 m = some p.2 := by
  induction l generalizing es with
  | nil => simp only [List.mapM_nil] at h; cases h; exact ⟨[], by simp⟩
  | cons x l ih =>
    rw [List.mapM_cons] at h
    have hpe : plainEntry m x = match bibFormatter x.2 m with
      | some v => .ok (x.1 ++ " = ".toList ++ v ++ ",".toList)
      | none => .error .zeroDivision := rfl
    rcases hx : bibFormatter x.2 m with _ | v
    · rw [hpe, hx] at h; cases h
    · rw [hpe, hx] at h
      rcases hl : l.mapM (plainEntry m) with e | es'
      · rw [hl] at h; cases h
      · obtain ⟨vs, h1, h2, h3⟩ := ih es' hl
        rw [hl] at h
        cases h
        refine ⟨v :: vs, by simp [h1], by rw [List.zip_cons_cons, List.map_cons, h2], ?_⟩
        intro p hp
        simp only [List.zip_cons_cons, List.mem_cons] at hp
        rcases hp with rfl | hp
        · exact hx
        · exact h3 p hp

theorem join_indent (sep ind : Str) (e : Str) (es : List Str) :
    ind ++ Str.join (sep ++ ind) (e :: es) = Str.join sep ((e :: es).map (ind ++ ·)) := by
  induction es generalizing e with
  | nil => simp [Str.join]
  | cons x es ih =>
    rw [Str.join_cons _ e _ (List.cons_ne_nil x es), List.map_cons, Str.join_cons _ (ind ++ e) _ (by simp), ← ih x]
    simp

theorem join_snoc (sep : Str) (e : Str) (es : List Str) (x : Str) : Str.join sep (e :: es) ++ sep ++ x = Str.join sep (e :: es ++ [x]) := by
  induction es generalizing e with
  | nil => simp [Str.join]
  | cons y es ih =>
    have := ih y
    rw [List.cons_append] at this
    rw [Str.join_cons _ e _ (List.cons_ne_nil y es), List.cons_append, List.cons_append, Str.join_cons _ e _ (by simp), ← this]
    simp

theorem authors_eq (r : Rec) : Str.join " and ".toList (r.authorsFull.getD ["None".toList]) = authorsOf r := by
  unfold authorsOf
  cases r.authorsFull with
  | none => rfl
  | some l => exact Bib.join_intercalate _ _

/-- C65, entry: the entry of a good record has exactly the lines it must have, each field in a line of its own with the value formatted as C35
says, if there is no line break in the key, the authors, the tags and the formatted values. -/
theorem C65_entry (title : Str → Str) (m : Int) (restricted nice : Bool) (r : Rec) (hb : r.bad = false) (out : Str)
    (h : bibString title m false restricted nice r = .ok out)
    (hk : '\n' ∉ bibID title false nice r) (ha : '\n' ∉ authorsOf r)
    (hf : ∀ p ∈ tagsIter restricted r, '\n' ∉ p.1 ∧ ∀ v, bibFormatter p.2 m = some v → '\n' ∉ v) :
    ∃ fields : List (Str × Str), fields.map Prod.fst = (tagsIter restricted r).map Prod.fst ∧
      (fields.map (fun p => some p.2)) = (tagsIter restricted r).map (fun p => bibFormatter p.2 m) ∧
      linesOf out = entryLines (bibID title false nice r) (authorsOf r) fields := by
  unfold bibString at h
  simp only [hb, Bool.false_eq_true, if_false] at h
  rcases hes : (tagsIter restricted r).mapM (plainEntry m) with e | es
  · rw [hes] at h; cases h
  · rw [hes] at h
    have hout : "@misc{ ".toList ++ bibID title false nice r ++ ",\n    ".toList ++ Str.join "\n    ".toList (authorEntry r :: es) ++
        "\n}".toList = out := by injection h
    obtain ⟨vs, h1, h2, h3⟩ := mapM_plain m _ _ hes
    refine ⟨((tagsIter restricted r).zip vs).map (fun p => (p.1.1, p.2)), ?_, ?_, ?_⟩
    · rw [List.map_map]
      show ((tagsIter restricted r).zip vs).map (Prod.fst ∘ Prod.fst) = _
      rw [← List.map_map, List.map_fst_zip (by omega)]
    · rw [List.map_map]
      have : ((tagsIter restricted r).zip vs).map ((fun p : Str × Str => some p.2) ∘ fun p => (p.1.1, p.2)) =
          ((tagsIter restricted r).zip vs).map ((fun p => bibFormatter p.2 m) ∘ Prod.fst) := by
        apply List.map_congr_left
        intro p hp
        simpa using (h3 p hp).symm
      rw [this, ← List.map_map, List.map_fst_zip (by omega)]
    · have hlines : out = Str.join "\n".toList (entryLines (bibID title false nice r) (authorsOf r)
          (((tagsIter restricted r).zip vs).map (fun p => (p.1.1, p.2)))) := by
        rw [← hout]
        have e1 : ("@misc{ ".toList ++ bibID title false nice r ++ ",\n    ".toList ++ Str.join "\n    ".toList (authorEntry r :: es) ++ "\n}".toList) =
            ("@misc{ ".toList ++ bibID title false nice r ++ ",".toList) ++ "\n".toList ++
              (("    ".toList ++ Str.join ("\n".toList ++ "    ".toList) (authorEntry r :: es)) ++ "\n".toList ++ "}".toList) := by
          simp
        rw [e1, join_indent, List.map_cons, join_snoc, ← Str.join_cons _ _ _ (by simp)]
        unfold entryLines authorEntry
        rw [← h2, authors_eq]
        simp [List.map_map, Function.comp_def]
      rw [hlines]
      unfold linesOf
      show Str.split ['\n'] (Str.join ['\n'] _) = _
      refine Str.split_join_char '\n' _ (by simp [entryLines]) ?_
      intro p hp
      unfold entryLines at hp
      simp only [List.mem_cons, List.mem_append, List.mem_map, List.not_mem_nil, or_false] at hp
      rcases hp with rfl | rfl | ⟨q, ⟨z, hz, rfl⟩, rfl⟩ | rfl
      · simp only [List.mem_append, not_or]; exact ⟨⟨by decide, hk⟩, by decide⟩
      · simp only [List.mem_append, not_or]; exact ⟨⟨by decide, ha⟩, by decide⟩
      · have hz1 : z.1 ∈ tagsIter restricted r := (List.of_mem_zip (show (z.1, z.2) ∈ _ from hz)).1
        have := hf z.1 hz1
        simp only [List.mem_append, not_or]
        exact ⟨⟨⟨⟨by decide, this.1⟩, by decide⟩, this.2 _ (h3 z hz)⟩, by decide⟩
      · decide

/-- C65, failures: a record gives no entry exactly when it is bad, or (without the style of WOS) when the length limit is 0 and some listed
field is not empty. -/
theorem C65_entry_fails (title : Str → Str) (m : Int) (wos restricted nice : Bool) (r : Rec) :
    (∃ e, bibString title m wos restricted nice r = .error e) ↔
      r.bad = true ∨ (wos = false ∧ ∃ p ∈ tagsIter restricted r, m = 0 ∧ p.2.text ≠ []) := by
  have hfm : ∀ v : Value, bibFormatter v m = none ↔ m = 0 ∧ v.text ≠ [] := by
    intro v
    unfold bibFormatter
    by_cases hl : (v.text.length : Int) > m
    · simp only [if_pos hl]
      by_cases hm : m = 0
      · subst hm
        simp only [if_true, true_and, true_iff]
        intro h; rw [h] at hl; simp at hl
      · simp [hm]
    · simp only [if_neg hl]
      constructor
      · intro h; by_cases hq : '"' ∉ v.text <;> simp [hq] at h
      · rintro ⟨rfl, hne⟩
        exfalso
        have : v.text.length ≠ 0 := by simpa using hne
        omega
  have hmap : ∀ l : List (Str × Value), (∃ e, l.mapM (plainEntry m) = .error e) ↔ ∃ p ∈ l, bibFormatter p.2 m = none := by
    intro l
    induction l with
    | nil => simp [List.mapM_nil]; intro e h; cases h
    | cons x l ih =>
      rw [List.mapM_cons]
      have hpe : plainEntry m x = match bibFormatter x.2 m with
        | some v => .ok (x.1 ++ " = ".toList ++ v ++ ",".toList)
        | none => .error .zeroDivision := rfl
      rcases hx : bibFormatter x.2 m with _ | v
      · rw [hpe, hx]
        exact ⟨fun _ => ⟨x, by simp, hx⟩, fun _ => ⟨.zeroDivision, rfl⟩⟩
      · rw [hpe, hx]
        have : (∃ p ∈ x :: l, bibFormatter p.2 m = none) ↔ ∃ p ∈ l, bibFormatter p.2 m = none := by simp [hx]
        rw [this, ← ih]
        rcases l.mapM (plainEntry m) with e | es
        · exact ⟨fun _ => ⟨e, rfl⟩, fun _ => ⟨e, rfl⟩⟩
        · exact ⟨fun ⟨e, h⟩ => (by cases h), fun ⟨e, h⟩ => (by cases h)⟩
  unfold bibString
  cases hb : r.bad
  · cases wos
    · simp only [Bool.false_eq_true, if_false, false_or, true_and]
      rw [show (∃ p ∈ tagsIter restricted r, m = 0 ∧ p.2.text ≠ []) ↔ ∃ p ∈ tagsIter restricted r, bibFormatter p.2 m = none by simp only [hfm],
        ← hmap]
      rcases (tagsIter restricted r).mapM (plainEntry m) with e | es
      · exact ⟨fun _ => ⟨e, rfl⟩, fun _ => ⟨e, rfl⟩⟩
      · exact ⟨fun ⟨e, h⟩ => (by cases h), fun ⟨e, h⟩ => (by cases h)⟩
    · simp
  · simp

/-! ## Keys -/

/-- C65, keys: without nice IDs the key that stands in the entry is the ID of the record, if the ID has no comma. So entries of records with
different IDs have different keys. -/
theorem C65_plain_key (title : Str → Str) (m : Int) (restricted : Bool) (r : Rec) (out : Str)
    (h : bibString title m false restricted false r = .ok out) (hc : ',' ∉ r.id) : readKey out = r.id := by
  unfold bibString at h
  cases hb : r.bad
  · simp only [hb, Bool.false_eq_true, if_false, bibID] at h
    rcases hes : (tagsIter restricted r).mapM (plainEntry m) with e | es
    · rw [hes] at h; cases h
    · rw [hes] at h
      have hout : "@misc{ ".toList ++ r.id ++ ",\n    ".toList ++ Str.join "\n    ".toList (authorEntry r :: es) ++ "\n}".toList = out := by injection h
      rw [← hout]
      unfold readKey
      have e1 : ("@misc{ ".toList ++ r.id ++ ",\n    ".toList ++ Str.join "\n    ".toList (authorEntry r :: es) ++ "\n}".toList).drop "@misc{ ".length =
          r.id ++ (",\n    ".toList ++ Str.join "\n    ".toList (authorEntry r :: es) ++ "\n}".toList) := by
        simp only [List.append_assoc]; rfl
      rw [e1, List.takeWhile_append_of_pos (by intro a ha; simp only [ne_eq, decide_eq_true_eq]; rintro rfl; exact hc ha)]
      simp
  · simp [hb] at h

theorem squash_eq (title : Str → Str) (x : Str) : squash title x = (title x).filter (fun c => c ≠ ' ' ∧ c ≠ ',' ∧ c ≠ '.') := by
  unfold squash
  rw [show Str.replace ".".toList [] = Str.replace ['.'] [] from rfl, show Str.replace ",".toList [] = Str.replace [','] [] from rfl,
    show Str.replace " ".toList [] = Str.replace [' '] [] from rfl, Bib.replace_char, Bib.replace_char, Bib.replace_char]
  generalize title x = t
  induction t with
  | nil => rfl
  | cons c t ih =>
    by_cases h1 : c = ' '
    · subst h1; simpa using ih
    · by_cases h2 : c = ','
      · subst h2; simpa using ih
      · by_cases h3 : c = '.'
        · subst h3; simpa using ih
        · simpa [h1, h2, h3] using ih

theorem niceHead_eq (title : Str → Str) (r : Rec) : niceHead title r = keyHead title r := by
  unfold niceHead keyHead
  rcases r.authorsFull with _ | _ | ⟨a, l⟩ <;> rcases r.year with _ | y <;> rcases r.month with _ | m <;> simp [squash_eq]

theorem wosEntry_eq (p : Str × Value) : "\n".toList ++ wosEntry p = wosField p := by
  unfold wosEntry wosField
  rcases p with ⟨k, s | l | s⟩
  · simp only [wosValue, List.append_assoc]
  · simp only [wosValue, Bib.join_intercalate, List.append_assoc]
  · simp only [wosValue, List.append_assoc]

theorem join_wosEntry (e : Str) (l : List (Str × Value)) : Str.join "\n".toList (e :: l.map wosEntry) = e ++ l.flatMap wosField := by
  induction l generalizing e with
  | nil => simp [Str.join]
  | cons x l ih => rw [List.map_cons, Str.join_cons _ e _ (List.cons_ne_nil _ _), ih, List.flatMap_cons, ← wosEntry_eq]; simp only [List.append_assoc]

theorem bibString_wos (title : Str → Str) (m : Int) (restricted nice : Bool) (r : Rec) (hb : r.bad = false) :
    bibString title m true restricted nice r = .ok ("@misc{ ".toList ++ bibID title true nice r ++ ",\n".toList ++
      Str.join "\n".toList (authorEntry r :: (tagsIter restricted r).map wosEntry) ++ "\n}".toList) := by
  unfold bibString
  rw [hb]
  rfl

theorem wosText_eq (r : Rec) (k : Str) (l : List (Str × Value)) : "@misc{ ".toList ++ k ++ ",\n".toList ++
    Str.join "\n".toList (authorEntry r :: l.map wosEntry) ++ "\n}".toList = wosText k (authorsOf r) l := by
  have e : ",\nauthor = {{".toList = ",\n".toList ++ "author = {{".toList := by decide
  rw [join_wosEntry]
  unfold wosText authorEntry
  rw [authors_eq]
  generalize authorsOf r = a
  generalize l.flatMap wosField = f
  rw [e]
  simp only [List.append_assoc]

/-- C65, the style of WOS: the whole text of the entry. -/
theorem C65_wos_entry (title : Str → Str) (m : Int) (restricted nice : Bool) (r : Rec) (hb : r.bad = false) :
    bibString title m true restricted nice r = .ok (wosText (bibID title true nice r) (authorsOf r) (tagsIter restricted r)) :=
  (bibString_wos title m restricted nice r hb).trans (congrArg Except.ok (wosText_eq r _ _))

/-- C65, keys in the style of WOS: the ID with `ISI:` for `WOS:`. -/
theorem C65_wos_key (title : Str → Str) (m : Int) (restricted : Bool) (r : Rec) (out n : Str)
    (h : bibString title m true restricted false r = .ok out) (hi : r.id = "WOS:".toList ++ n) (hc : ',' ∉ n) : readKey out = "ISI:".toList ++ n := by
  cases hb : r.bad
  · rw [C65_wos_entry title m restricted false r hb] at h
    injection h with h
    rw [← h]
    have hk : bibID title true false r = "ISI:".toList ++ n := by unfold bibID; simp [hi]
    rw [hk]
    unfold readKey wosText
    generalize List.flatMap wosField _ = f
    have e1 : ∀ rest : Str, ("@misc{ ".toList ++ ("ISI:".toList ++ n) ++ rest).drop "@misc{ ".length = ("ISI:".toList ++ n) ++ rest := by
      intro rest; simp only [List.append_assoc]; rfl
    simp only [List.append_assoc] at e1 ⊢
    rw [e1, ← List.append_assoc, List.takeWhile_append_of_pos]
    · simp
    · intro a ha
      simp only [ne_eq, decide_eq_true_eq]
      rintro rfl
      rcases List.mem_append.1 ha with ha | ha
      · revert ha; decide
      · exact hc ha
  · simp [bibString, hb] at h

/-- C65, nice keys of records without title: author, year and month, and the ID of the record when that is shorter than 30. -/
theorem C65_nice_untitled (title : Str → Str) (wos : Bool) (r : Rec) (ht : r.title = none ∨ r.title = some []) :
    bibID title wos true r = if (keyHead title r).length < 30 then keyHead title r ++ r.id else keyHead title r := by
  unfold bibID niceBody
  rw [← niceHead_eq]
  rcases ht with h | h <;> simp [h]

/-- C65, nice keys: author, year and month, then words of the title, longest first, as many as it takes to reach 35 characters, at least
one; and the ID of the record when that is shorter than 30. -/
theorem C65_nice_key (title : Str → Str) (wos : Bool) (r : Rec) (t : Str) (ht : r.title = some t) (hne : t ≠ []) :
    ∃ (ws : List Str) (k : Nat) (body : Str), ws.Perm (Str.split " ".toList t) ∧ ws.Pairwise (fun a b => b.length ≤ a.length) ∧
      1 ≤ k ∧ k ≤ ws.length ∧ body = keyHead title r ++ (ws.take k).flatMap (fun w => '-' :: title w) ∧
      (∀ j, 1 ≤ j → j < k → (keyHead title r ++ (ws.take j).flatMap (fun w => '-' :: title w)).length < 35) ∧
      (k < ws.length → 35 ≤ body.length) ∧
      bibID title wos true r = if body.length < 30 then body ++ r.id else body := by
  rw [← niceHead_eq]
  have hloop : ∀ (ws : List Str) (b : Str), ∃ k, k ≤ ws.length ∧ niceLoop title b ws = b ++ (ws.take k).flatMap (fun w => '-' :: title w) ∧
      (∀ j, j < k → (b ++ (ws.take j).flatMap (fun w => '-' :: title w)).length < 35) ∧ (k < ws.length → 35 ≤ (niceLoop title b ws).length) := by
    intro ws
    induction ws with
    | nil => intro b; exact ⟨0, by simp, by simp [niceLoop], by simp, by simp⟩
    | cons w ws ih =>
      intro b
      unfold niceLoop
      by_cases hb : b.length < 35
      · rw [if_pos hb]
        obtain ⟨k, h1, h2, h3, h4⟩ := ih (b ++ "-".toList ++ title w)
        refine ⟨k + 1, by simpa using h1, by rw [h2]; simp, ?_, ?_⟩
        · intro j hj
          cases j with
          | zero => simpa using hb
          | succ j => have := h3 j (by omega); simpa using this
        · intro hk; exact h4 (by simpa using hk)
      · rw [if_neg hb]
        exact ⟨0, by simp, by simp, by simp, fun _ => by omega⟩
  have hsp : (Str.split " ".toList t) ≠ [] := Str.split_ne_nil _ _
  have hperm := List.perm_insertionSort (fun a b : Str => a.length ≤ b.length) (Str.split " ".toList t)
  have hsort : ((Str.split " ".toList t).insertionSort (fun a b => a.length ≤ b.length)).Pairwise (fun a b => a.length ≤ b.length) := by
    haveI : Std.Total (fun a b : Str => a.length ≤ b.length) := ⟨fun a b => Nat.le_total _ _⟩
    haveI : IsTrans Str (fun a b : Str => a.length ≤ b.length) := ⟨fun _ _ _ => Nat.le_trans⟩
    exact List.pairwise_insertionSort _ _
  generalize hS : (Str.split " ".toList t).insertionSort (fun a b => a.length ≤ b.length) = S at hperm hsort
  cases hR : S.reverse with
  | nil => exact absurd (hperm.symm.trans (by simp [List.reverse_eq_nil_iff.1 hR])).eq_nil hsp
  | cons w ws =>
    have hbody : niceBody title r = niceLoop title (niceHead title r ++ "-".toList ++ title w) ws := by
      unfold niceBody
      rw [ht]
      cases t with
      | nil => exact absurd rfl hne
      | cons c t => simp only [hS, hR]
    obtain ⟨k, h1, h2, h3, h4⟩ := hloop ws (niceHead title r ++ "-".toList ++ title w)
    refine ⟨w :: ws, k + 1, niceBody title r, ?_, ?_, by omega, by simpa using h1, ?_, ?_, ?_, ?_⟩
    · rw [← hR]; exact S.reverse_perm.trans hperm
    · rw [← hR, List.pairwise_reverse]; exact hsort
    · rw [hbody, h2]; simp
    · intro j hj hjk
      obtain ⟨j, rfl⟩ : ∃ i, j = i + 1 := ⟨j - 1, by omega⟩
      have := h3 j (by omega)
      simpa using this
    · intro hk; rw [hbody]; exact h4 (by simpa using hk)
    · unfold bibID; simp

/-- C65, the ID of the record is in the nice key of a short one, and only there: the key has at least 30 characters, or ends with the ID. -/
theorem C65_nice_short (title : Str → Str) (wos : Bool) (r : Rec) : 30 ≤ (bibID title wos true r).length ∨ r.id <:+ bibID title wos true r := by
  unfold bibID
  simp only [if_true]
  by_cases h : (niceBody title r).length < 30
  · right; rw [if_pos h]; exact ⟨_, rfl⟩
  · left; rw [if_neg h]; omega

/-- C65 fails for nice keys: when the nice key of a record does not end with its ID, every record with the same authors, date and title has that key. -/
theorem C65_nice_collision (title : Str → Str) (wos : Bool) (r s : Rec) (ha : r.authorsFull = s.authorsFull) (hy : r.year = s.year)
    (hm : r.month = s.month) (ht : r.title = s.title) (hl : ¬ r.id <:+ bibID title wos true r) :
    bibID title wos true r = bibID title wos true s := by
  have hl : 30 ≤ (niceBody title r).length := by
    by_contra h
    refine hl ?_
    unfold bibID
    simp only [if_true]
    rw [if_pos (by omega)]; exact ⟨_, rfl⟩
  have e : niceBody title r = niceBody title s := by unfold niceBody niceHead; rw [ha, hy, hm, ht]
  unfold bibID
  simp only [if_true, ← e]
  rw [if_neg (by omega), if_neg (by omega)]

private def r0 (i : String) : Rec :=
  ⟨false, i.toList, some ["Doe, J. R.".toList], some "2001".toList, none, some "Networks, and all of their uses in practice".toList,
    [("TI".toList, .str "On".toList), ("AF".toList, .list ["Doe, J".toList, "Roe, K".toList])],
    fun k => if k = "title".toList then some (.str "On".toList) else none⟩

/-- C65 fails for nice keys, witnesses: two records with different IDs and one key, and a title with a comma, which cuts the key. -/
theorem C65_nice_witness : (r0 "WOS:1").id ≠ (r0 "WOS:2").id ∧ bibID id false true (r0 "WOS:1") = bibID id false true (r0 "WOS:2") ∧
    bibID id false true (r0 "WOS:1") = "DoeJR-2001-Networks,-practice-their".toList ∧
    (bibString id 1000 false false true (r0 "WOS:1")).map readKey = .ok "DoeJR-2001-Networks".toList := by
  refine ⟨by decide +kernel, by decide +kernel, by decide +kernel, ?_⟩
  rfl

/-! ## The file -/

/-- C65, header: it is made of comments, lines that start with a percent sign. -/
theorem C65_header : ∃ ls : List Str, header = ls.flatMap (fun l => '%' :: l ++ ['\n']) ∧ ls ≠ [] ∧ ∀ l ∈ ls, '\n' ∉ l := by
  refine ⟨(((linesOf header).dropLast).map (fun l => l.drop 1)), ?_, ?_, ?_⟩ <;> decide +kernel

/-- C65, file: when every record gives an entry the file is the header and the entries, each after an empty line, in the order of the
records. -/
theorem C65_file (title : Str → Str) (m : Int) (wos restricted nice : Bool) (rs : List Rec) (outs : List Str)
    (h : rs.map (bibString title m wos restricted nice) = outs.map .ok) :
    writeBib title m wos restricted nice rs = (header ++ outs.flatMap (fun s => "\n\n".toList ++ s), none) := by
  unfold writeBib
  generalize header = f
  induction rs generalizing f outs with
  | nil =>
    cases outs with
    | nil => simp [writeLoop]
    | cons a b => simp at h
  | cons r rs ih =>
    cases outs with
    | nil => simp at h
    | cons o outs =>
      simp only [List.map_cons, List.cons.injEq] at h
      unfold writeLoop
      simp only [h.1]
      rw [ih outs h.2]; simp

/-- C65 fails for bad records: they are not left out. The first one ends `writeBib` with `BadRecord`, and the entries of the records after it
are missing in the file. -/
theorem C65_bad_record (title : Str → Str) (m : Int) (wos restricted nice : Bool) (rs : List Rec) (outs : List Str) (b : Rec) (more : List Rec)
    (h : rs.map (bibString title m wos restricted nice) = outs.map .ok) (hb : b.bad = true) :
    writeBib title m wos restricted nice (rs ++ b :: more) =
      (header ++ outs.flatMap (fun s => "\n\n".toList ++ s) ++ "\n\n".toList, some .badRecord) := by
  unfold writeBib
  generalize header = f
  induction rs generalizing f outs with
  | nil =>
    cases outs with
    | nil => simp [writeLoop, bibString, hb]
    | cons a b => simp at h
  | cons r rs ih =>
    cases outs with
    | nil => simp at h
    | cons o outs =>
      simp only [List.map_cons, List.cons.injEq] at h
      rw [List.cons_append]
      unfold writeLoop
      simp only [h.1]
      rw [ih outs h.2]; simp

/-! ## Examples -/

example : (bibString id 1000 false false false (r0 "WOS:1")).map linesOf = .ok
    (["@misc{ WOS:1,", "    author = {{Doe, J. R.}},", "    TI = \"On\",", "    AF = \"Doe, J and Roe, K\",", "}"].map String.toList) := by rfl
example : (bibString id 1000 true true false (r0 "WOS:1")) = .ok
    "@misc{ ISI:1,\nauthor = {{Doe, J. R.}},\ntitle = {{On}},\n}".toList := by rfl
example : '\n' ∉ bibID id false true (r0 "WOS:1") ∧ '\n' ∉ authorsOf (r0 "WOS:1") := by decide +kernel
example : 30 ≤ (niceBody id (r0 "WOS:1")).length := by decide +kernel
example : [r0 "WOS:1"].map (bibString id 3 true true false) = ["@misc{ ISI:1,\nauthor = {{Doe, J. R.}},\ntitle = {{On}},\n}".toList].map .ok := by rfl

example : wosText "ISI:1".toList "A and B".toList [("AF".toList, .list ["A".toList, "B".toList])] =
    "@misc{ ISI:1,\nauthor = {{A and B}},\nAF = {{A\n   B}},\n}".toList := by decide +kernel
example : keyHead id (r0 "WOS:1") = "DoeJR-2001".toList := by decide +kernel
example : bibID id false true { r0 "WOS:1" with title := none } = "DoeJR-2001WOS:1".toList := by decide +kernel

end Verif.Props.BibEntry
