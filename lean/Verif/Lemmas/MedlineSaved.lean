import Verif.Lemmas.MedlinePipeline

/-! # Lemmas for C114 -/
set_option autoImplicit false
set_option linter.unusedSimpArgs false
namespace Verif.Lemmas.MedlineSaved
open Verif.Py Verif.Model.Medline Verif.Model.MedlinePipeline Verif.Spec.MedlinePipeline Verif.Spec.Medline Verif.Lemmas.Medline Verif.Lemmas.MedlinePipeline

/-! ## Parts of texts -/

theorem infix_sep {c : Char} {pat x y : Str} (hc : c ∉ pat) (h : pat <:+: x ++ c :: y) : pat <:+: x ∨ pat <:+: y := by
  obtain ⟨a, b, e⟩ := h
  rw [List.append_assoc] at e
  rcases List.append_eq_append_iff.1 e with ⟨u, e1, e2⟩ | ⟨u, e1, e2⟩
  · -- x = a ++ u, pat ++ b = u ++ c :: y
    rcases List.append_eq_append_iff.1 e2 with ⟨v, f1, f2⟩ | ⟨v, f1, f2⟩
    · left
      rw [e1, f1]
      exact ⟨a, v, by simp⟩
    · cases v with
      | nil => left; rw [e1, f1]; exact ⟨a, [], by simp⟩
      | cons d v =>
        rw [List.cons_append] at f2
        obtain ⟨rfl, _⟩ := List.cons.inj f2
        exact absurd (by rw [f1]; simp) hc
  · -- a = x ++ u, c :: y = u ++ (pat ++ b)
    cases u with
    | nil =>
      rw [List.nil_append] at e2
      cases pat with
      | nil => right; exact List.nil_infix
      | cons d pat =>
        obtain ⟨rfl, _⟩ := List.cons.inj e2
        exact absurd (by simp) hc
    | cons d u =>
      right
      obtain ⟨_, e3⟩ := List.cons.inj e2
      exact ⟨u, b, by rw [e3, List.append_assoc]; rfl⟩

def pat : Str := "VR 1.0".toList

theorem infix_front {x : Str} (h : pat <:+: ' ' :: x) : pat <:+: x := by
  rcases List.infix_cons_iff.1 h with h | h
  · obtain ⟨t, e⟩ := h
    have h1 : 'V' = ' ' := (List.cons.inj (show 'V' :: ("R 1.0".toList ++ t) = ' ' :: x from e)).1
    exact absurd h1 (by decide)
  · exact h

theorem infix_back {x : Str} (h : pat <:+: x ++ [' ']) : pat <:+: x := by
  rcases List.infix_concat_iff.1 h with h | h
  · obtain ⟨t, e⟩ := h
    have := congrArg List.getLast? e
    rw [List.getLast?_append, List.getLast?_append] at this
    have h1 : some '0' = some ' ' := this
    exact absurd h1 (by decide)
  · exact h

theorem no_join {x y : Str} (hx : ¬ pat <:+: x) (hy : ¬ pat <:+: y) : ¬ pat <:+: x ++ " : ".toList ++ y := by
  intro h
  have e : x ++ " : ".toList ++ y = (x ++ [' ']) ++ ':' :: (' ' :: y) := by simp
  rw [e] at h
  rcases infix_sep (by decide) h with h | h
  · exact hx (infix_back h)
  · exact hy (infix_front h)

theorem no_intercalate (sep : Str) (k : Nat) (hs : sep = '\n' :: List.replicate k ' ') (l : List Str) (h : ∀ x ∈ l, ¬ pat <:+: x) :
    ¬ pat <:+: sep.intercalate l := by
  have hk : ∀ (k : Nat) (y : Str), pat <:+: List.replicate k ' ' ++ y → pat <:+: y := by
    intro k
    induction k with
    | zero => intro y h; exact h
    | succ k ih => intro y h; exact ih y (infix_front h)
  rw [← Verif.Props.WosFields.join_eq]
  induction l with
  | nil =>
    intro h
    have h1 : pat.length ≤ ([] : Str).length := h.length_le
    exact absurd h1 (by decide)
  | cons x l ih =>
    cases l with
    | nil => exact h x (by simp)
    | cons y l =>
      rw [Str.join, hs, List.append_assoc, List.cons_append]
      intro hi
      rcases infix_sep (by decide) hi with hi | hi
      · exact h x (by simp) hi
      · have := hk k _ hi
        rw [← hs] at this
        exact ih (fun z hz => h z (List.mem_cons_of_mem _ hz)) this

theorem no_entry (e : Str × List Str) (ht : e.1.length ≤ 4) (h : ∀ l ∈ e.2, ¬ pat <:+: l) : ¬ pat <:+: entryText e := by
  intro hi
  have e1 : entryText e = (e.1 ++ List.replicate (4 - e.1.length) ' ') ++ '-' :: (' ' :: ("\n      ".toList.intercalate e.2 ++ '\n' :: [])) := by
    simp [entryText]
  rw [e1] at hi
  rcases infix_sep (by decide) hi with hi | hi
  · have := hi.length_le
    rw [List.length_append, List.length_replicate] at this
    have h6 : pat.length = 6 := by decide
    omega
  · rcases infix_sep (by decide) (infix_front hi) with hi | hi
    · exact no_intercalate "\n      ".toList 6 (by decide) e.2 h hi
    · exact absurd hi.length_le (by decide)

theorem content_suffix (x : Str) : content x <:+ x := by
  have hj := Str.join_split " : ".toList x (by decide)
  unfold content
  cases hs : Str.split " : ".toList x with
  | nil => exact absurd hs (Str.split_ne_nil _ _)
  | cons a l =>
    rw [hs] at hj
    rw [List.tail_cons]
    cases l with
    | nil => exact List.nil_suffix
    | cons b l =>
      rw [Str.join] at hj
      exact ⟨_, hj⟩

theorem part_infix (v l : Str) (h : l ∈ Str.split ['\n'] v) : l <:+: v := by
  have hj := Str.join_split ['\n'] v (by decide)
  rw [← hj]
  generalize Str.split ['\n'] v = ls at h
  clear hj
  induction ls with
  | nil => cases h
  | cons x ls ih =>
    cases ls with
    | nil =>
      rw [List.mem_singleton] at h
      rw [h]; exact List.infix_refl _
    | cons y ls =>
      rw [Str.join]
      rcases List.mem_cons.1 h with rfl | h
      · exact ⟨[], _, by rw [List.nil_append, List.append_assoc]⟩
      · exact (ih h).trans (List.IsSuffix.isInfix ⟨_, rfl⟩)

/-! ## What is written for a record -/

/-- The contents of a tag for an author, as the writer finds them. -/
def own (d : Fields) (t a : Str) : List Str := ((vals d t).filter (fun x => name x = a)).map content

theorem authTags_vals (d : Fields) (a : Str) : vals (authTags d) a = (ownItems (own d) a).map (fun i => entry i.1 i.2) := by
  have key : ∀ t : Str, ∀ e : Fields, vals (((Dict.get? d t).getD []).foldl (fun acc val =>
      push acc ((Str.split " : ".toList val).headD []) (entry t (Str.join " : ".toList (Str.split " : ".toList val).tail))) e) a
      = vals e a ++ (own d t a).map (entry t) := by
    intro t e
    rw [vals_foldl_push (fun val => (Str.split " : ".toList val).headD []) (fun val => entry t (Str.join " : ".toList (Str.split " : ".toList val).tail))]
    congr 1
    unfold own
    rw [List.map_map]
    rfl
  unfold authTags authorBasedTags
  simp only [List.foldl_cons, List.foldl_nil]
  rw [key, key]
  simp [vals, ownItems, authorBasedTags, Function.comp_def, Dict.get?]

theorem writeFields_items (d : Fields) : writeFields d = ((d.flatMap (fieldItems (own d))).map (fun i => entry i.1 i.2)).flatten := by
  unfold writeFields
  have : ∀ e : Fields, e.flatMap (fun f => if f.1 ∈ authorBasedTags then [] else
      f.2.flatMap (fun v => entry f.1 v ++ (if f.1 = auTag then ((Dict.get? (authTags d) v).getD []).flatten else [])))
      = ((e.flatMap (fieldItems (own d))).map (fun i => entry i.1 i.2)).flatten := by
    intro e
    induction e with
    | nil => rfl
    | cons f e ih =>
      rw [List.flatMap_cons, List.flatMap_cons, List.map_append, List.flatten_append, ih]
      congr 1
      unfold fieldItems
      split
      · rfl
      · generalize f.2 = vs
        induction vs with
        | nil => rfl
        | cons v vs ihv =>
          rw [List.flatMap_cons, List.flatMap_cons, List.map_append, List.flatten_append, ihv]
          congr 1
          rw [List.map_cons, List.flatten_cons]
          congr 1
          split
          · have := authTags_vals d v
            unfold vals at this
            rw [this]
          · rfl
  exact this d

/-- The paper that is written for a paper that was read: entries under the same tag are put together, those of an author behind the author. -/
def regroup (p : Paper) : Paper := ((fieldsOf p).flatMap (fieldItems (own (fieldsOf p)))).map (fun i => (i.1, Str.split ['\n'] i.2))

theorem items_regroup (p : Paper) : items (regroup p) = (fieldsOf p).flatMap (fieldItems (own (fieldsOf p))) := by
  unfold items regroup
  rw [List.map_map]
  refine (List.map_congr_left ?_).trans (List.map_id _)
  rintro ⟨t, v⟩ _
  show (t, "\n".toList.intercalate (Str.split ['\n'] v)) = (t, v)
  rw [← Verif.Props.WosFields.join_eq, show "\n".toList = ['\n'] from rfl, Str.join_split _ _ (by decide)]

theorem wf (p : Paper) : Dict.WF (fieldsOf p) := wf_after _ _ Dict.WF_nil

theorem same_values (p : Paper) : SameValues (regroup p) p := by
  intro tag ht
  have hta : tag.toList ∉ authorBasedTags := by
    intro hm
    have hm : tag.toList ∈ ["AD", "AUID"].map String.toList := hm
    obtain ⟨s, hs, e⟩ := List.mem_map.1 hm
    rw [String.toList_inj] at e
    exact ht (e ▸ hs)
  rw [valuesOf_items, items_regroup, ← gather_plain tag.toList hta none, gather_plain_items _ _ _ hta, flatMap_field _ (wf p)]
  have := get?_values p tag hta
  unfold vals
  rw [this]
  by_cases h : valuesOf p tag = []
  · rw [if_pos h, h]; rfl
  · rw [if_neg h]; rfl

theorem written_text (p : Paper) : writeFields (fieldsOf p) = (regroup p).flatMap entryText := by
  rw [writeFields_items]
  unfold regroup
  rw [List.flatMap_map, List.flatMap_def]
  congr 1
  apply List.map_congr_left
  rintro ⟨t, v⟩ _
  show entry t v = entryText (t, Str.split ['\n'] v)
  unfold entry entryText Str.replace
  rw [Verif.Props.WosFields.join_eq]
  rfl

/-! ## What is written can be read -/

/-- A property of texts that values have when the lines in the file have it. -/
structure Kept (P : Str → Prop) : Prop where
  joined : ∀ x y, P x → P y → P (x ++ " : ".toList ++ y)
  part : ∀ x y, x <:+: y → P y → P x
  noName : P "None".toList

theorem firstLine_infix (v : Str) : firstLine v <:+: v := by
  unfold firstLine
  cases hs : Str.split ['\n'] v with
  | nil => exact List.nil_infix
  | cons a l => exact part_infix v a (by rw [hs]; simp)

theorem vals_kept {P : Str → Prop} (hP : Kept P) (is : List (Str × Str)) (h : ∀ i ∈ is, P i.2) (t : Str) :
    ∀ x ∈ vals (is.foldl stepItem ⟨[], pmid, none⟩).d t, P x := by
  have key : ∀ (is : List (Str × Str)) (s : St), (∀ i ∈ is, P i.2) → P (showAuthor s.mra) → (∀ x ∈ vals s.d t, P x) →
      ∀ x ∈ vals (is.foldl stepItem s).d t, P x := by
    intro is
    induction is with
    | nil => intro s _ _ h; exact h
    | cons i is ih =>
      intro s hi hm hs
      have hi0 := hi i (by simp)
      have hm' : P (showAuthor (if i.1 = auTag then some (firstLine i.2) else s.mra)) := by
        split
        · exact hP.part _ _ (firstLine_infix _) hi0
        · exact hm
      refine ih (stepItem s i) (fun j hj => hi j (by simp [hj])) hm' ?_
      intro x hx
      unfold stepItem at hx
      dsimp only at hx
      rw [vals_push] at hx
      rcases List.mem_append.1 hx with hx | hx
      · exact hs x hx
      · split at hx
        · rw [List.mem_singleton] at hx
          rw [hx]
          split
          · exact hP.joined _ _ hm' hi0
          · exact hi0
        · cases hx
  exact key is _ h hP.noName (by simp [vals, Dict.get?])

theorem item_kept {P : Str → Prop} (hP : Kept P) (p : Paper) (h : ∀ i ∈ items p, P i.2) : ∀ i ∈ items (regroup p), P i.2 := by
  intro i hi
  rw [items_regroup] at hi
  obtain ⟨f, hf, hi⟩ := List.mem_flatMap.1 hi
  have hv : ∀ t, ∀ x ∈ vals (fieldsOf p) t, P x := fun t => vals_kept hP (items p) h t
  have hfv : ∀ v ∈ f.2, P v := by
    intro v hv'
    refine hv f.1 v ?_
    unfold vals
    rw [Dict.get?_of_mem (wf p) (show (f.1, f.2) ∈ fieldsOf p from hf)]
    exact hv'
  unfold fieldItems at hi
  split at hi
  · cases hi
  · obtain ⟨v, hvm, hi⟩ := List.mem_flatMap.1 hi
    rcases List.mem_cons.1 hi with rfl | hi
    · exact hfv v hvm
    · split at hi
      · obtain ⟨t, _, hi⟩ := List.mem_flatMap.1 hi
        obtain ⟨c, hc, rfl⟩ := List.mem_map.1 hi
        obtain ⟨x, hx, rfl⟩ := List.mem_map.1 hc
        exact hP.part _ _ (content_suffix x).isInfix (hv t x (List.mem_filter.1 hx).1)
      · cases hi

/-- Each tag that is written is a tag of the paper. -/
theorem tag_kept (p : Paper) : ∀ i ∈ items (regroup p), ∃ e ∈ p, e.1 = i.1 := by
  intro i hi
  rw [items_regroup] at hi
  obtain ⟨f, hf, hi⟩ := List.mem_flatMap.1 hi
  have hkey : ∀ t, vals (fieldsOf p) t ≠ [] → ∃ e ∈ p, e.1 = t := by
    intro t ht
    apply key_tag
    unfold vals at ht
    cases hg : Dict.get? (fieldsOf p) t with
    | none => rw [hg] at ht; exact absurd rfl ht
    | some v => rfl
  have hfk : ∃ e ∈ p, e.1 = f.1 := key_tag p f.1 (by rw [Dict.get?_of_mem (wf p) (show (f.1, f.2) ∈ fieldsOf p from hf)]; rfl)
  unfold fieldItems at hi
  split at hi
  · cases hi
  · obtain ⟨v, hvm, hi⟩ := List.mem_flatMap.1 hi
    rcases List.mem_cons.1 hi with rfl | hi
    · exact hfk
    · split at hi
      · obtain ⟨t, _, hi⟩ := List.mem_flatMap.1 hi
        obtain ⟨c, hc, rfl⟩ := List.mem_map.1 hi
        obtain ⟨x, hx, rfl⟩ := List.mem_map.1 hc
        exact hkey t (List.ne_nil_of_mem (List.mem_filter.1 hx).1)
      · cases hi

theorem first_field {v : Str} (is : List (Str × Str)) (s : St) (h : ∃ vs d, s.d = (pmid, v :: vs) :: d) :
    ∃ vs d, (is.foldl stepItem s).d = (pmid, v :: vs) :: d := by
  induction is generalizing s with
  | nil => exact h
  | cons i is ih =>
    refine ih (stepItem s i) ?_
    obtain ⟨vs, d, e⟩ := h
    unfold stepItem
    dsimp only
    unfold push
    rw [e]
    by_cases ht : i.1 = pmid
    · exact ⟨_, d, by rw [ht]; simp [Dict.get?, Dict.set]; rfl⟩
    · exact ⟨vs, _, by simp only [Dict.set, if_neg (Ne.symm ht)]; rfl⟩

theorem noCR_kept : Kept (fun s => '\r' ∉ s) where
  joined x y hx hy := by simp [hx, hy]
  part x y h hy hx := hy (h.subset hx)
  noName := by decide

theorem pat_kept : Kept (fun s => ¬ pat <:+: s) where
  joined _ _ hx hy := no_join hx hy
  part _ _ h hy hx := hy (hx.trans h)
  noName := by
    intro h
    exact absurd h.length_le (by decide)

variable {alpha : Char → Bool}

theorem regroup_ok {p : Paper} (h : PaperOk alpha p) : PaperOk alpha (regroup p) where
  first := by
    obtain ⟨v, rest, rfl⟩ := h.first
    have hn : '\n' ∉ v := ((h.lines _ (List.mem_cons_self ..)).2 v (by simp)).1
    obtain ⟨vs, d, e⟩ := first_field (v := v) (items rest) (stepItem ⟨[], pmid, none⟩ (pmid, v)) ⟨[], [], rfl⟩
    have hf : fieldsOf (("PMID".toList, [v]) :: rest) = (pmid, v :: vs) :: d := by
      rw [← e]
      unfold fieldsOf items
      rw [List.map_cons, List.foldl_cons, show "\n".toList.intercalate [v] = v by simp [List.intercalate]]
      rfl
    refine ⟨v, ?_, ?_⟩
    rotate_left
    · unfold regroup
      rw [hf, List.flatMap_cons, List.map_append]
      unfold fieldItems
      dsimp only
      rw [if_neg (by decide)]
      rw [List.flatMap_cons, if_neg (by decide), List.map_append, List.map_cons, List.append_assoc, List.cons_append,
        Str.split_none ['\n'] v (by rwa [List.singleton_infix_iff])]
      rfl
  tags := by
    intro e he
    obtain ⟨e', he', e1⟩ := tag_kept p _ (List.mem_map_of_mem he)
    dsimp only at e1
    rw [← e1]
    exact h.tags e' he'
  reserved := by
    intro e he
    obtain ⟨e', he', e1⟩ := tag_kept p _ (List.mem_map_of_mem he)
    dsimp only at e1
    rw [← e1]
    exact h.reserved e' he'
  lines := by
    intro e he
    have hcr := item_kept noCR_kept p (by
      intro i hi
      obtain ⟨x, hx, rfl⟩ := List.mem_map.1 hi
      exact intercalate_notMem '\r' "\n".toList x.2 (by decide) (fun l hl => ((h.lines x hx).2 l hl).2))
    unfold regroup at he
    obtain ⟨i, hi, rfl⟩ := List.mem_map.1 he
    rw [← items_regroup] at hi
    refine ⟨Str.split_ne_nil _ _, fun l hl => ⟨Str.split_char_pieces '\n' _ l hl, fun hm => hcr i hi ((part_infix _ l hl).subset hm)⟩⟩

theorem regroup_plain {p : Paper} (h : Plain p) : Plain (regroup p) := by
  have hp := item_kept pat_kept p (by
    intro i hi
    obtain ⟨x, hx, rfl⟩ := List.mem_map.1 hi
    exact no_intercalate "\n".toList 0 (by decide) x.2 (h x hx))
  intro e he l hl
  unfold regroup at he
  obtain ⟨i, hi, rfl⟩ := List.mem_map.1 he
  rw [← items_regroup] at hi
  intro hin
  exact hp i hi (hin.trans (part_infix _ l hl))

theorem regroup_file {papers papers' : List Paper} (h : FileOk alpha papers) (hp : papers'.Perm papers) (hpl : ∀ p ∈ papers, Plain p) :
    FileOk alpha (papers'.map regroup) where
  some := by
    intro e
    rw [List.map_eq_nil_iff] at e
    rw [e] at hp
    exact h.some hp.nil_eq.symm
  each := by
    intro q hq
    obtain ⟨p, hp', rfl⟩ := List.mem_map.1 hq
    exact regroup_ok (h.each p (hp.mem_iff.1 hp'))
  different := by
    rw [List.map_map]
    have : (papers'.map ((fun p => (valuesOf p "PMID").head?) ∘ regroup)) = papers'.map (fun p => (valuesOf p "PMID").head?) :=
      List.map_congr_left (fun p _ => by show (valuesOf (regroup p) "PMID").head? = _; rw [same_values p "PMID" (by decide)])
    rw [this]
    exact (hp.map _).nodup_iff.2 h.different
  notWos := by
    intro q hq e he
    obtain ⟨p, hp', rfl⟩ := List.mem_map.1 (List.mem_of_mem_head? hq)
    have hp'' := hp.mem_iff.1 hp'
    exact no_entry e ((regroup_ok (h.each p hp'')).tags e he).1.2.1 (regroup_plain (hpl p hp'') e he)

end Verif.Lemmas.MedlineSaved
