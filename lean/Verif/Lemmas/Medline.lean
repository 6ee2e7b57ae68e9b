import Verif.Model.Medline
import Verif.Spec.Medline

/-!
# Lemmas on the Medline model
-/
set_option autoImplicit false
set_option linter.unusedSimpArgs false
namespace Verif.Lemmas.Medline
open Verif.Py Verif.Model.Medline Verif.Spec.Medline

/-- The lines of a value. -/
def entryLines (t v : Str) : List Str :=
  match Str.split ['\n'] v with
  | [] => []
  | p :: ps => (t ++ List.replicate (4 - t.length) ' ' ++ "- ".toList ++ p ++ ['\n']) :: ps.map (fun q => "      ".toList ++ q ++ ['\n'])

theorem join_lines (ps : List Str) (hps : ps ≠ []) (pre : Str) :
    pre ++ Str.join "\n      ".toList ps ++ ['\n'] = (match ps with
      | [] => []
      | p :: ps => (pre ++ p ++ ['\n']) :: ps.map (fun q => "      ".toList ++ q ++ ['\n'])).flatten := by
  induction ps generalizing pre with
  | nil => exact absurd rfl hps
  | cons p ps ih =>
    cases ps with
    | nil => simp [Str.join]
    | cons q ps =>
      rw [Str.join_cons _ _ _ (by simp)]
      have := ih (by simp) ("      ".toList)
      simp only [List.flatten_cons, List.map_cons] at this ⊢
      rw [← this]
      simp

theorem entry_flatten (t v : Str) : entry t v = (entryLines t v).flatten := by
  unfold entry entryLines Str.replace
  have := join_lines (Str.split ['\n'] v) (Str.split_ne_nil _ _) (t ++ List.replicate (4 - t.length) ' ' ++ "- ".toList)
  rw [this]

theorem entryLines_complete (t v : Str) (ht : '\n' ∉ t) : Lines.Complete (entryLines t v) := by
  unfold entryLines
  have hp := Str.split_char_pieces '\n' v
  revert hp
  cases Str.split ['\n'] v with
  | nil => intro _ l hl; simp at hl
  | cons p ps =>
    intro hp l hl
    rcases List.mem_cons.1 hl with rfl | hl
    · refine ⟨_, rfl, ?_⟩
      simp [List.mem_replicate, ht, hp p (by simp)]
    · obtain ⟨q, hq, rfl⟩ := List.mem_map.1 hl
      refine ⟨_, rfl, ?_⟩
      simp [hp q (List.mem_cons_of_mem _ hq)]

/-- The first line of a value. -/
def firstLine (v : Str) : Str := (Str.split ['\n'] v).headD []

theorem firstLine_id (v : Str) (h : '\n' ∉ v) : firstLine v = v := by
  unfold firstLine
  rw [Str.split_none ['\n'] v (by rwa [List.singleton_infix_iff])]
  rfl

/-- Reading a value. -/
def stepItem (s : St) (i : Str × Str) : St :=
  let mra := if i.1 = auTag then some (firstLine i.2) else s.mra
  ⟨push s.d i.1 (if i.1 ∈ authorBasedTags then showAuthor mra ++ " : ".toList ++ i.2 else i.2), i.1, mra⟩

variable {ws alpha : Char → Bool}

theorem rstrip_tag (hc : Classes ws alpha) (t : Str) (ht : TagOk alpha t) (k : Nat) : Str.rstrip ws (t ++ List.replicate k ' ') = t := by
  unfold Str.rstrip
  rw [List.reverse_append, List.reverse_replicate]
  have h1 : ∀ (k : Nat) (s : Str), List.dropWhile ws (List.replicate k ' ' ++ s) = List.dropWhile ws s := by
    intro k s
    induction k with
    | zero => simp
    | succ k ih => rw [List.replicate_succ, List.cons_append, List.dropWhile_cons_of_pos (by exact hc.space), ih]
  rw [h1]
  cases h : t.reverse with
  | nil => exact absurd (List.reverse_eq_nil_iff.1 h) ht.1
  | cons c r =>
    have hcm : c ∈ t := by rw [← List.mem_reverse, h]; simp
    rw [List.dropWhile_cons_of_neg (by rw [hc.letter c (ht.2.2 c hcm)]; simp), ← h, List.reverse_reverse]

theorem take_tag (t : Str) (ht : t.length ≤ 4) (s : Str) :
    (t ++ List.replicate (4 - t.length) ' ' ++ "- ".toList ++ s ++ ['\n']).take 4 = t ++ List.replicate (4 - t.length) ' ' := by
  have : (t ++ List.replicate (4 - t.length) ' ').length = 4 := by simp; omega
  rw [List.append_assoc, List.append_assoc, List.take_append_of_le_length (by omega), List.take_of_length_le (by omega)]

theorem isAlpha_tag (t : Str) (ht : TagOk alpha t) : isAlpha alpha t = true := by
  unfold isAlpha
  simp only [Bool.and_eq_true, List.all_eq_true]
  refine ⟨?_, ht.2.2⟩
  cases t with
  | nil => exact absurd rfl ht.1
  | cons c t => rfl

theorem parse_tag (hc : Classes ws alpha) (s : St) (t p : Str) (ht : TagOk alpha t) (rest : List Str) :
    parseFrom ws alpha s ((t ++ List.replicate (4 - t.length) ' ' ++ "- ".toList ++ p ++ ['\n']) :: rest)
      = parseFrom ws alpha (tagLine s t p) rest := by
  have h4 : (t ++ List.replicate (4 - t.length) ' ').length = 4 := by have := ht.2.1; simp; omega
  generalize hl : t ++ List.replicate (4 - t.length) ' ' ++ "- ".toList ++ p ++ ['\n'] = l
  have htake : Str.rstrip ws (l.take 4) = t := by rw [← hl, take_tag t ht.2.1, rstrip_tag hc t ht]
  have hlen : ¬ l.length < 5 := by rw [← hl]; simp at h4 ⊢; omega
  have hdash : l[4]? = some '-' := by
    rw [← hl, List.append_assoc, List.append_assoc, List.getElem?_append_right (by omega), h4]; rfl
  have hcont : l.dropLast.drop 6 = p := by
    rw [← hl, List.dropLast_concat, List.append_assoc, List.drop_append, h4]
    simp [List.drop_of_length_le, h4]
  rw [parseFrom]
  simp only [htake, hcont]
  rw [if_neg (fun h => hlen h.2), if_pos ⟨isAlpha_tag t ht, hdash⟩]

theorem get?_push_self (d : Fields) (t v : Str) : Dict.get? (push d t v) t = some ((Dict.get? d t).getD [] ++ [v]) := by
  unfold push; rw [Dict.get?_set]; simp

theorem set_set (d : Fields) (k : Str) (v w : List Str) : Dict.set (Dict.set d k v) k w = Dict.set d k w := by
  induction d with
  | nil => simp [Dict.set]
  | cons p d ih =>
    obtain ⟨k', v'⟩ := p
    by_cases h : k' = k
    · subst h; simp [Dict.set]
    · simp only [Dict.set, if_neg h]; rw [ih]

theorem extendLast_concat (vs : List Str) (w v : Str) : extendLast (vs ++ [w]) v = vs ++ [w ++ v] := by
  unfold extendLast; simp

/-- Continuation lines. -/
theorem parse_cont (hc : Classes ws alpha) (d : Fields) (t v : Str) (mra : Option Str) (ps : List Str) (rest : List Str) :
    parseFrom ws alpha ⟨push d t v, t, mra⟩ (ps.map (fun q => "      ".toList ++ q ++ ['\n']) ++ rest)
      = parseFrom ws alpha ⟨push d t (v ++ ps.flatMap (fun q => '\n' :: q)), t, mra⟩ rest := by
  induction ps generalizing v with
  | nil => simp
  | cons q ps ih =>
    rw [List.map_cons, List.cons_append, parseFrom]
    have h4 : ("      ".toList ++ q ++ ['\n']).take 4 = [' ', ' ', ' ', ' '] := rfl
    have hr : Str.rstrip ws [' ', ' ', ' ', ' '] = [] := by simp [Str.rstrip, hc.space]
    have hcont : ("      ".toList ++ q ++ ['\n']).dropLast.drop 6 = q := by
      rw [List.dropLast_concat]; rfl
    have h6 : ("      ".toList ++ q ++ ['\n']).take 6 = "      ".toList := rfl
    simp only [h4, hr, hcont]
    rw [if_neg (by simp [isAlpha]), if_neg (by simp [isAlpha]), if_pos h6, get?_push_self]
    simp only
    rw [extendLast_concat]
    have : Dict.set (push d t v) t ((Dict.get? d t).getD [] ++ [v ++ '\n' :: q]) = push d t (v ++ '\n' :: q) := by
      unfold push; rw [set_set]
    rw [this, ih]
    simp

theorem flatMap_nl (p : Str) (ps : List Str) : p ++ ps.flatMap (fun q => '\n' :: q) = Str.join ['\n'] (p :: ps) := by
  induction ps generalizing p with
  | nil => simp [Str.join]
  | cons q ps ih =>
    rw [Str.join_cons _ _ _ (by simp), ← ih]
    simp

theorem parse_item (hc : Classes ws alpha) (s : St) (t v : Str) (ht : TagOk alpha t) (rest : List Str) :
    parseFrom ws alpha s (entryLines t v ++ rest) = parseFrom ws alpha (stepItem s (t, v)) rest := by
  unfold entryLines stepItem firstLine
  have hj := Str.join_split ['\n'] v (by simp)
  revert hj
  cases hsp : Str.split ['\n'] v with
  | nil => exact absurd hsp (Str.split_ne_nil _ _)
  | cons p ps =>
    intro hj
    simp only [List.headD_cons]
    rw [List.cons_append, parse_tag hc s t p ht]
    unfold tagLine
    simp only
    rw [parse_cont hc, ← hj, ← flatMap_nl]
    split <;> simp [*]

theorem parse_items (hc : Classes ws alpha) (s : St) (is : List (Str × Str)) (hi : ∀ i ∈ is, TagOk alpha i.1) (rest : List Str) :
    parseFrom ws alpha s (is.flatMap (fun i => entryLines i.1 i.2) ++ rest) = parseFrom ws alpha (is.foldl stepItem s) rest := by
  induction is generalizing s with
  | nil => rfl
  | cons i is ih =>
    rw [List.flatMap_cons, List.append_assoc, parse_item hc s i.1 i.2 (hi i (by simp)), ih _ (fun j hj => hi j (by simp [hj]))]
    rfl

/-- The values of a tag, when these items are read. -/
def gather (t : Str) : Option Str → List (Str × Str) → List Str
  | _, [] => []
  | mra, i :: is =>
    let mra' := if i.1 = auTag then some (firstLine i.2) else mra
    (if i.1 = t then [if t ∈ authorBasedTags then showAuthor mra' ++ " : ".toList ++ i.2 else i.2] else []) ++ gather t mra' is

def vals (d : Fields) (t : Str) : List Str := (Dict.get? d t).getD []

theorem vals_push (d : Fields) (u v t : Str) : vals (push d u v) t = vals d t ++ (if u = t then [v] else []) := by
  unfold vals push
  rw [Dict.get?_set]
  by_cases h : u = t
  · subst h; simp
  · simp [h]

theorem vals_foldl (s : St) (is : List (Str × Str)) (t : Str) :
    vals (is.foldl stepItem s).d t = vals s.d t ++ gather t s.mra is := by
  induction is generalizing s with
  | nil => simp [gather]
  | cons i is ih =>
    rw [List.foldl_cons, ih]
    simp only [stepItem, gather]
    rw [vals_push, List.append_assoc]
    by_cases h : i.1 = t
    · subst h; simp
    · simp [h]

theorem push_ne (d : Fields) (u v : Str) (h : ∀ t, Dict.get? d t ≠ some []) (t : Str) : Dict.get? (push d u v) t ≠ some [] := by
  unfold push; rw [Dict.get?_set]; split
  · simp
  · exact h t

theorem foldl_ne (s : St) (is : List (Str × Str)) (h : ∀ t, Dict.get? s.d t ≠ some []) (t : Str) :
    Dict.get? (is.foldl stepItem s).d t ≠ some [] := by
  induction is generalizing s with
  | nil => exact h t
  | cons i is ih => exact ih (stepItem s i) (push_ne _ _ _ h)

theorem same_of_vals (d e : Fields) (hd : ∀ t, Dict.get? d t ≠ some []) (he : ∀ t, Dict.get? e t ≠ some [])
    (h : ∀ t, vals d t = vals e t) : Same d e := by
  intro t
  have h1 := hd t; have h2 := he t; have h3 := h t
  unfold vals at h3
  cases hx : Dict.get? d t <;> cases hy : Dict.get? e t <;> rw [hx, hy] at h3 <;> simp_all

theorem gather_append (t : Str) (mra : Option Str) (is js : List (Str × Str)) (h : ∀ i ∈ is, i.1 ≠ auTag) :
    gather t mra (is ++ js) = gather t mra is ++ gather t mra js := by
  induction is with
  | nil => rfl
  | cons i is ih =>
    have hi := h i (by simp)
    simp only [List.cons_append, gather, if_neg hi]
    rw [ih (fun j hj => h j (by simp [hj]))]
    simp only [List.append_assoc]

/-- Tags which belong to no author do not depend on the author. -/
theorem gather_plain (t : Str) (ht : t ∉ authorBasedTags) (mra : Option Str) (is : List (Str × Str)) :
    gather t mra is = (is.filter (fun i => i.1 = t)).map Prod.snd := by
  induction is generalizing mra with
  | nil => rfl
  | cons i is ih =>
    simp only [gather, ih, if_neg ht]
    by_cases h : i.1 = t <;> simp [h]

theorem gather_none (t : Str) (mra : Option Str) (is : List (Str × Str)) (h : ∀ i ∈ is, i.1 ≠ t) : gather t mra is = [] := by
  induction is generalizing mra with
  | nil => rfl
  | cons i is ih => simp [gather, h i (by simp), ih _ (fun j hj => h j (by simp [hj]))]

theorem gather_append' (t : Str) (mra : Option Str) (is : List (Str × Str)) :
    ∃ mra', ∀ js, gather t mra (is ++ js) = gather t mra is ++ gather t mra' js := by
  induction is generalizing mra with
  | nil => exact ⟨mra, fun js => rfl⟩
  | cons i is ih =>
    obtain ⟨m, hm⟩ := ih (if i.1 = auTag then some (firstLine i.2) else mra)
    refine ⟨m, fun js => ?_⟩
    simp only [List.cons_append, gather, hm, List.append_assoc]

/-! ## The writer -/

theorem vals_foldl_push {α : Type} (k f : α → Str) (xs : List α) (d : Fields) (a : Str) :
    vals (xs.foldl (fun acc x => push acc (k x) (f x)) d) a = vals d a ++ (xs.filter (fun x => k x = a)).map f := by
  induction xs generalizing d with
  | nil => simp
  | cons x xs ih =>
    rw [List.foldl_cons, ih, vals_push]
    by_cases h : k x = a <;> simp [h]

/-- The name in front of an attached value. -/
def name (x : Str) : Str := (Str.split " : ".toList x).headD []
/-- The rest of it. -/
def content (x : Str) : Str := Str.join " : ".toList (Str.split " : ".toList x).tail

theorem split_attached (a c : Str) (ha : NameOk a) : Str.split " : ".toList (a ++ " : ".toList ++ c) = a :: Str.split " : ".toList c := by
  unfold Str.split
  rw [Str.splitGo_append _ (by simp) [] a c (by simpa using ha.2)]
  rfl

theorem name_attached (a c : Str) (ha : NameOk a) : name (a ++ " : ".toList ++ c) = a := by unfold name; rw [split_attached a c ha]; rfl

theorem content_attached (a c : Str) (ha : NameOk a) : content (a ++ " : ".toList ++ c) = c := by
  unfold content; rw [split_attached a c ha, List.tail_cons, Str.join_split _ _ (by simp)]

theorem filter_attached (as : List Str) (own : Str → List Str) (hn : as.Nodup) (ha : ∀ a ∈ as, NameOk a) (b : Str) :
    ((as.flatMap (fun a => (own a).map (fun c => a ++ " : ".toList ++ c))).filter (fun x => name x = b)).map content = if b ∈ as then own b else [] := by
  induction as with
  | nil => simp
  | cons a as ih =>
    rw [List.nodup_cons] at hn
    rw [List.flatMap_cons, List.filter_append, List.map_append, ih hn.2 (fun x hx => ha x (by simp [hx]))]
    have hna := ha a (by simp)
    have h1 : ((own a).map (fun c => a ++ " : ".toList ++ c)).filter (fun x => name x = b) = if a = b then (own a).map (fun c => a ++ " : ".toList ++ c) else [] := by
      by_cases h : a = b
      · rw [if_pos h]
        apply List.filter_eq_self.2
        intro x hx
        obtain ⟨c, _, rfl⟩ := List.mem_map.1 hx
        rw [name_attached a c hna]; simp [h]
      · rw [if_neg h]
        apply List.filter_eq_nil_iff.2
        intro x hx
        obtain ⟨c, _, rfl⟩ := List.mem_map.1 hx
        rw [name_attached a c hna]; simp [h]
    rw [h1]
    by_cases h : a = b
    · subst h
      rw [if_pos rfl, if_neg hn.1, List.append_nil, if_pos (by simp), List.map_map]
      conv_rhs => rw [← List.map_id (own a)]
      apply List.map_congr_left
      intro c _
      exact content_attached a c hna
    · have : b ∈ a :: as ↔ b ∈ as := by simp [Ne.symm h]
      simp only [if_neg h, List.map_nil, List.nil_append, this]

/-- What the writer puts after an author. -/
def ownItems (own : Str → Str → List Str) (a : Str) : List (Str × Str) := authorBasedTags.flatMap (fun t => (own t a).map (fun c => (t, c)))

theorem authTags_get (d : Fields) (hr : RecordOk alpha d) (own : Str → Str → List Str)
    (ho : ∀ t ∈ attachedTags, (Dict.get? d t).getD [] = (authors d).flatMap (fun a => (own t a).map (fun c => a ++ " : ".toList ++ c)))
    (a : Str) (ha : a ∈ authors d) : vals (authTags d) a = (ownItems own a).map (fun i => entry i.1 i.2) := by
  have key : ∀ t ∈ attachedTags, ∀ e : Fields, vals (((Dict.get? d t).getD []).foldl (fun acc val =>
      push acc ((Str.split " : ".toList val).headD []) (entry t (Str.join " : ".toList (Str.split " : ".toList val).tail))) e) a
      = vals e a ++ (own t a).map (entry t) := by
    intro t ht e
    rw [vals_foldl_push (fun val => (Str.split " : ".toList val).headD []) (fun val => entry t (Str.join " : ".toList (Str.split " : ".toList val).tail)),
      ho t ht]
    congr 1
    have := filter_attached (authors d) (own t) hr.nodup hr.names a
    rw [if_pos ha] at this
    rw [← this, List.map_map]
    rfl
  have h1 := key "AD".toList (by simp [attachedTags])
  have h2 := key "AUID".toList (by simp [attachedTags])
  unfold authTags authorBasedTags
  simp only [List.foldl_cons, List.foldl_nil]
  rw [h2, h1]
  simp [vals, ownItems, authorBasedTags, Function.comp_def, Dict.get?]

/-- What the writer writes for a field. -/
def fieldItems (own : Str → Str → List Str) (f : Str × List Str) : List (Str × Str) :=
  if f.1 ∈ authorBasedTags then [] else f.2.flatMap (fun v => (f.1, v) :: if f.1 = auTag then ownItems own v else [])

theorem flatten_entries (is : List (Str × Str)) :
    (is.map (fun i => entry i.1 i.2)).flatten = (is.flatMap (fun i => entryLines i.1 i.2)).flatten := by
  induction is with
  | nil => rfl
  | cons i is ih => rw [List.map_cons, List.flatten_cons, List.flatMap_cons, List.flatten_append, ih, entry_flatten]

theorem writeFields_eq (d : Fields) (hr : RecordOk alpha d) (own : Str → Str → List Str)
    (ho : ∀ t ∈ attachedTags, (Dict.get? d t).getD [] = (authors d).flatMap (fun a => (own t a).map (fun c => a ++ " : ".toList ++ c))) :
    writeFields d = ((d.flatMap (fieldItems own)).flatMap (fun i => entryLines i.1 i.2)).flatten := by
  rw [← flatten_entries]
  unfold writeFields
  have hau : ∀ f ∈ d, f.1 = auTag → ∀ v ∈ f.2, v ∈ authors d := by
    intro f hf h1 v hv
    unfold authors
    rw [show Dict.get? d "AU".toList = some f.2 from Dict.get?_of_mem hr.wf (by rw [show "AU".toList = f.1 from h1.symm]; exact hf)]
    exact hv
  have : ∀ e : Fields, (∀ f ∈ e, f ∈ d) → e.flatMap (fun f => if f.1 ∈ authorBasedTags then [] else
      f.2.flatMap (fun v => entry f.1 v ++ (if f.1 = auTag then ((Dict.get? (authTags d) v).getD []).flatten else [])))
      = ((e.flatMap (fieldItems own)).map (fun i => entry i.1 i.2)).flatten := by
    intro e he
    induction e with
    | nil => rfl
    | cons f e ih =>
      rw [List.flatMap_cons, List.flatMap_cons, List.map_append, List.flatten_append, ih (fun g hg => he g (by simp [hg]))]
      congr 1
      unfold fieldItems
      split
      · rfl
      · have hv := hau f (he f (by simp))
        generalize f.2 = vs at hv
        induction vs with
        | nil => rfl
        | cons v vs ihv =>
          rw [List.flatMap_cons, List.flatMap_cons, List.map_append, List.flatten_append, ihv (fun h w hw => hv h w (by simp [hw]))]
          congr 1
          rw [List.map_cons, List.flatten_cons]
          congr 1
          split
          · rename_i h
            have := authTags_get d hr own ho v (hv h v (by simp))
            unfold vals at this
            rw [this]
          · rfl
  exact this d (fun f hf => hf)

theorem flatMap_field (d : Fields) (hd : Dict.WF d) (t : Str) : d.flatMap (fun f => if f.1 = t then f.2 else []) = vals d t := by
  unfold vals
  induction d with
  | nil => rfl
  | cons f d ih =>
    obtain ⟨k, vs⟩ := f
    have hd' : Dict.WF d := (List.nodup_cons.1 hd).2
    have hk : k ∉ Dict.keys d := (List.nodup_cons.1 hd).1
    rw [List.flatMap_cons, ih hd']
    by_cases h : k = t
    · subst h
      rw [(Dict.get?_eq_none_iff d k).2 hk]
      simp [Dict.get?]
    · simp [Dict.get?, h]

theorem auTag_not : auTag ∉ authorBasedTags := by decide

/-- Reading back a tag which belongs to no author. -/
theorem gather_plain_items (d : Fields) (own : Str → Str → List Str) (t : Str) (ht : t ∉ authorBasedTags) (mra : Option Str) :
    gather t mra (d.flatMap (fieldItems own)) = d.flatMap (fun f => if f.1 = t then f.2 else []) := by
  rw [gather_plain t ht]
  induction d with
  | nil => rfl
  | cons f d ih =>
    rw [List.flatMap_cons, List.flatMap_cons, List.filter_append, List.map_append, ih]
    congr 1
    unfold fieldItems
    split
    · rename_i h
      rw [if_neg (fun (e : f.1 = t) => ht (e ▸ h))]; rfl
    · have h0 : ∀ v : Str, ((if f.1 = auTag then ownItems own v else []).filter (fun i => i.1 = t)) = [] := by
        intro v
        split
        · apply List.filter_eq_nil_iff.2
          intro i hi
          unfold ownItems at hi
          obtain ⟨u, hu, hi⟩ := List.mem_flatMap.1 hi
          obtain ⟨c, _, rfl⟩ := List.mem_map.1 hi
          simp only [decide_eq_true_eq]
          rintro rfl
          exact ht hu
        · rfl
      generalize f.2 = vs
      induction vs with
      | nil => simp
      | cons v vs ihv =>
        rw [List.flatMap_cons, List.filter_append, List.map_append, ihv, List.filter_cons, h0]
        by_cases h : f.1 = t <;> simp [h]

theorem gather_own (own : Str → Str → List Str) (a t : Str) (ht : t ∈ authorBasedTags) (mra : Option Str) :
    gather t mra (ownItems own a) = (own t a).map (fun c => showAuthor mra ++ " : ".toList ++ c) := by
  have h1 : ∀ (u : Str) (hu : u ∈ authorBasedTags) (cs : List Str), gather t mra (cs.map (fun c => (u, c)))
      = if u = t then cs.map (fun c => showAuthor mra ++ " : ".toList ++ c) else [] := by
    intro u hu cs
    have hne : u ≠ auTag := fun e => auTag_not (e ▸ hu)
    induction cs with
    | nil => simp [gather]
    | cons c cs ih =>
      rw [List.map_cons]
      simp only [gather, if_neg hne, ih, if_pos ht]
      by_cases h : u = t <;> simp [h]
  have h2 : ∀ i ∈ (own "AD".toList a).map (fun c => ("AD".toList, c)), i.1 ≠ auTag := by
    intro i hi
    obtain ⟨c, _, rfl⟩ := List.mem_map.1 hi
    show "AD".toList ≠ auTag
    decide
  unfold ownItems authorBasedTags
  simp only [List.flatMap_cons, List.flatMap_nil, List.append_nil]
  rw [gather_append t mra _ _ h2, h1 _ (by decide), h1 _ (by decide)]
  have : t = "AD".toList ∨ t = "AUID".toList := by simpa [authorBasedTags] using ht
  rcases this with rfl | rfl
  · rw [if_pos rfl, if_neg (by decide), List.append_nil]
  · rw [if_neg (by decide), if_pos rfl, List.nil_append]

/-- Reading back a tag which belongs to authors. -/
theorem gather_attached_items (d : Fields) (own : Str → Str → List Str) (t : Str) (ht : t ∈ authorBasedTags)
    (hn : ∀ f ∈ d, f.1 = auTag → ∀ v ∈ f.2, '\n' ∉ v) (mra : Option Str) :
    gather t mra (d.flatMap (fieldItems own))
      = d.flatMap (fun f => if f.1 = auTag then f.2.flatMap (fun a => (own t a).map (fun c => a ++ " : ".toList ++ c)) else []) := by
  induction d generalizing mra with
  | nil => rfl
  | cons f d ih =>
    rw [List.flatMap_cons, List.flatMap_cons]
    obtain ⟨m, hm⟩ := gather_append' t mra (fieldItems own f)
    rw [hm, ih (fun g hg => hn g (by simp [hg]))]
    congr 1
    unfold fieldItems
    split
    · rename_i h
      rw [if_neg (fun (e : f.1 = auTag) => auTag_not (e ▸ h))]; rfl
    · rename_i h
      by_cases hau : f.1 = auTag
      · rw [if_pos hau]
        simp only [if_pos hau]
        have hv := hn f (by simp) hau
        generalize f.2 = vs at hv
        clear hm ih m
        induction vs generalizing mra with
        | nil => rfl
        | cons v vs ihv =>
          rw [List.flatMap_cons, List.flatMap_cons]
          rw [List.cons_append, gather]
          simp only [hau, if_true]
          rw [if_neg (fun (e : auTag = t) => auTag_not (e ▸ ht)), List.nil_append, firstLine_id v (hv v (by simp))]
          obtain ⟨m, hm⟩ := gather_append' t (some v) (ownItems own v)
          rw [hm, gather_own own v t ht]
          have := ihv m (fun w hw => hv w (by simp [hw]))
          simp only [hau] at this
          rw [this]
          rfl
      · rw [if_neg hau]
        apply gather_none
        intro i hi
        obtain ⟨v, _, hi⟩ := List.mem_flatMap.1 hi
        simp only [if_neg hau, List.mem_singleton] at hi
        subst hi
        exact fun e => h (e ▸ ht)

theorem join_mem (sep : Str) (l : List Str) (c : Char) (h : c ∈ Str.join sep l) : c ∈ sep ∨ ∃ p ∈ l, c ∈ p := by
  induction l with
  | nil => simp [Str.join] at h
  | cons p l ih =>
    cases l with
    | nil => exact Or.inr ⟨p, by simp, h⟩
    | cons q l =>
      rw [Str.join_cons _ _ _ (by simp)] at h
      rcases List.mem_append.1 h with h | h
      · rcases List.mem_append.1 h with h | h
        · exact Or.inr ⟨p, by simp, h⟩
        · exact Or.inl h
      · rcases ih h with h | ⟨r, hr, h⟩
        · exact Or.inl h
        · exact Or.inr ⟨r, by simp [hr], h⟩

theorem mem_join (sep : Str) (l : List Str) (p : Str) (hp : p ∈ l) (c : Char) (h : c ∈ p) : c ∈ Str.join sep l := by
  induction l with
  | nil => simp at hp
  | cons q l ih =>
    cases l with
    | nil => simp at hp; subst hp; exact h
    | cons r l =>
      rw [Str.join_cons _ _ _ (by simp)]
      rcases List.mem_cons.1 hp with rfl | hp
      · simp [h]
      · have := ih hp
        simp [this]

theorem entry_noCR (t v : Str) (ht : '\r' ∉ t) (hv : '\r' ∉ v) : '\r' ∉ entry t v := by
  unfold entry
  intro h
  simp only [List.mem_append, List.mem_replicate] at h
  rcases h with (((h | h) | h) | h) | h
  · exact ht h
  · exact absurd h.2 (by decide)
  · exact absurd h (by decide)
  · rcases join_mem _ _ _ h with h | ⟨p, hp, h⟩
    · exact absurd h (by decide)
    · apply hv
      rw [← Str.join_split ['\n'] v (by simp)]
      exact mem_join _ _ p hp _ h
  · exact absurd h (by decide)

/-- What is written is read back, up to where the reading goes on. -/
theorem parse_written (hc : Classes ws alpha) (d : Fields) (hr : RecordOk alpha d) :
    ∃ (ls : List Str) (s : St), writeFields d = ls.flatten ∧ Lines.Complete ls ∧ Same s.d d ∧
      (∀ rest, recordParser ws alpha (ls ++ rest) = parseFrom ws alpha s rest) ∧
      ((∀ f ∈ d, '\r' ∉ f.1 ∧ ∀ v ∈ f.2, '\r' ∉ v) → '\r' ∉ ls.flatten) ∧
      (∀ vs d0, d = (pmid, vs) :: d0 → ∃ p ls', ls = ("PMID- ".toList ++ p) :: ls') := by
  obtain ⟨own, ho⟩ := hr.attached
  have hau : ∀ f ∈ d, f.1 = auTag → f.2 = authors d := by
    intro f hf h1
    unfold authors
    rw [show Dict.get? d "AU".toList = some f.2 from Dict.get?_of_mem hr.wf (by rw [show "AU".toList = f.1 from h1.symm]; exact hf)]
    rfl
  have htag : ∀ i ∈ d.flatMap (fieldItems own), TagOk alpha i.1 := by
    intro i hi
    obtain ⟨f, hf, hi⟩ := List.mem_flatMap.1 hi
    have hft : TagOk alpha f.1 := hr.tags f.1 (List.mem_map_of_mem hf)
    unfold fieldItems at hi
    split at hi
    · simp at hi
    · obtain ⟨v, hv, hi⟩ := List.mem_flatMap.1 hi
      rcases List.mem_cons.1 hi with rfl | hi
      · exact hft
      · split at hi
        · rename_i h
          obtain ⟨u, hu, hi⟩ := List.mem_flatMap.1 hi
          obtain ⟨c, hcm, rfl⟩ := List.mem_map.1 hi
          have hu' := ho u hu
          have : (Dict.get? d u).getD [] ≠ [] := by
            rw [hu']
            intro e
            have := List.flatMap_eq_nil_iff.1 e v (by rw [← hau f hf h]; exact hv)
            simp at this
            rw [this] at hcm
            simp at hcm
          apply hr.tags
          rw [Dict.mem_keys_iff]
          cases hg : Dict.get? d u with
          | none => rw [hg] at this; simp at this
          | some x => rfl
        · simp at hi
  refine ⟨_, (d.flatMap (fieldItems own)).foldl stepItem ⟨[], pmid, none⟩, writeFields_eq d hr own ho, ?_, ?_, ?_, ?_, ?_⟩
  · intro l hl
    obtain ⟨i, hi, hl⟩ := List.mem_flatMap.1 hl
    refine entryLines_complete i.1 i.2 ?_ l hl
    intro e
    have h1 := hc.letter _ ((htag i hi).2.2 _ e)
    rw [hc.newline] at h1
    simp at h1
  · apply same_of_vals _ _ (foldl_ne _ _ (by intro t; simp [Dict.get?])) hr.vals
    intro t
    rw [vals_foldl]
    simp only [vals, Dict.get?, Option.getD_none, List.nil_append]
    by_cases ht : t ∈ authorBasedTags
    · rw [gather_attached_items d own t ht (fun f hf h1 v hv => (hr.names v (by rw [← hau f hf h1]; exact hv)).1), ho t ht]
      have e1 := flatMap_field d hr.wf auTag
      have : authors d = vals d auTag := rfl
      rw [this, ← e1, List.flatMap_assoc]
      congr 1
      funext f
      split <;> rfl
    · rw [gather_plain_items d own t ht, flatMap_field d hr.wf]; rfl
  · intro rest
    exact parse_items hc _ _ htag rest
  · intro hcr hmem
    rw [← flatten_entries] at hmem
    obtain ⟨e, he, hmem⟩ := List.mem_flatten.1 hmem
    obtain ⟨i, hi, rfl⟩ := List.mem_map.1 he
    obtain ⟨f, hf, hi⟩ := List.mem_flatMap.1 hi
    unfold fieldItems at hi
    split at hi
    · simp at hi
    · obtain ⟨v, hv, hi⟩ := List.mem_flatMap.1 hi
      rcases List.mem_cons.1 hi with rfl | hi
      · exact entry_noCR _ _ (hcr f hf).1 ((hcr f hf).2 v hv) hmem
      · split at hi
        · rename_i h
          obtain ⟨u, hu, hi⟩ := List.mem_flatMap.1 hi
          obtain ⟨c, hcm, rfl⟩ := List.mem_map.1 hi
          have hu' := ho u hu
          have hx : v ++ " : ".toList ++ c ∈ (Dict.get? d u).getD [] := by
            rw [hu', List.mem_flatMap]
            exact ⟨v, by rw [← hau f hf h]; exact hv, List.mem_map_of_mem hcm⟩
          cases hg : Dict.get? d u with
          | none => rw [hg] at hx; simp at hx
          | some x =>
            rw [hg] at hx
            have h2 := hcr (u, x) (Dict.mem_of_get? hg)
            refine entry_noCR _ _ h2.1 (fun e => h2.2 _ hx ?_) hmem
            simp [e]
        · simp at hi
  · intro vs d0 hd
    subst hd
    cases vs with
    | nil => exact absurd (by simp [Dict.get?] : Dict.get? ((pmid, ([] : List Str)) :: d0) pmid = some []) (hr.vals pmid)
    | cons v vs =>
      have h1 : fieldItems own (pmid, v :: vs) = (pmid, v) :: (vs.flatMap (fun v => [(pmid, v)])) := by
        unfold fieldItems
        rw [if_neg (show ¬ pmid ∈ authorBasedTags by decide)]
        simp only [if_neg (show ¬ pmid = auTag by decide), List.flatMap_cons]
        rfl
      rw [List.flatMap_cons, h1, List.cons_append, List.flatMap_cons]
      cases hsp : Str.split ['\n'] v with
      | nil => exact absurd hsp (Str.split_ne_nil _ _)
      | cons p ps =>
        generalize List.flatMap _ _ = tl
        refine ⟨p ++ ['\n'], ps.map (fun q => "      ".toList ++ q ++ ['\n']) ++ tl, ?_⟩
        unfold entryLines
        rw [hsp]
        rfl

/-! ## What the parser can return -/

theorem splitGo_head (c : Char) (acc s t : Str) (hs : c ∈ s) :
    (Str.splitGo [c] 0 acc (s ++ t)).headD [] = (Str.splitGo [c] 0 acc s).headD [] := by
  induction s generalizing acc with
  | nil => simp at hs
  | cons x s ih =>
    by_cases h : c = x
    · subst h
      simp [Str.splitGo]
    · have hx : ¬ (List.isPrefixOf [c] (x :: (s ++ t)) = true) := by simp [h]
      have hx' : ¬ (List.isPrefixOf [c] (x :: s) = true) := by simp [h]
      rw [List.cons_append, Str.splitGo, if_neg hx, Str.splitGo, if_neg hx']
      exact ih _ (by simpa [h] using hs)

theorem firstLine_cont (v c : Str) : firstLine (v ++ '\n' :: c) = firstLine v := by
  unfold firstLine
  by_cases h : '\n' ∈ v
  · exact splitGo_head '\n' [] v _ h
  · rw [show v ++ '\n' :: c = v ++ ['\n'] ++ c by simp]
    unfold Str.split
    rw [Str.splitGo_append ['\n'] (by simp) [] v c (by simpa [List.singleton_infix_iff] using h), Str.splitGo_none ['\n'] [] v (by rwa [List.singleton_infix_iff])]
    rfl

theorem isAlpha_iff (s : Str) : isAlpha alpha s = true ↔ s ≠ [] ∧ ∀ c ∈ s, alpha c = true := by
  unfold isAlpha
  cases s <;> simp

/-- The state after reading these items. -/
def after (is : List (Str × Str)) : St := is.foldl stepItem ⟨[], pmid, none⟩

theorem parse_image (is : List (Str × Str)) (ls : List Str) (hl : ∀ l ∈ ls, '\n' ∉ l.dropLast) (d : Fields) (rest : List Str)
    (h : parseFrom ws alpha (after is) ls = (.ok d, rest)) (hi : ∀ i ∈ is, TagOk alpha i.1) :
    ∃ is', (∀ i ∈ is', TagOk alpha i.1) ∧ d = (after is').d := by
  induction ls generalizing is with
  | nil => simp only [parseFrom, Prod.mk.injEq, Except.ok.injEq] at h; exact ⟨is, hi, h.1.symm⟩
  | cons l ls ih =>
    have hll : ∀ k ∈ ls, '\n' ∉ k.dropLast := fun k hk => hl k (by simp [hk])
    rw [parseFrom] at h
    split at h
    · simp at h
    · split at h
      · rename_i h1 h2
        have htag : TagOk alpha (Str.rstrip ws (l.take 4)) := by
          obtain ⟨g1, g2⟩ := (isAlpha_iff _).1 h2.1
          refine ⟨g1, ?_, g2⟩
          unfold Str.rstrip
          rw [List.length_reverse]
          refine (List.dropWhile_sublist _).length_le.trans ?_
          simp; omega
        have hc : '\n' ∉ l.dropLast.drop 6 := fun e => hl l (by simp) (List.mem_of_mem_drop e)
        refine ih (is ++ [(Str.rstrip ws (l.take 4), l.dropLast.drop 6)]) hll ?_ ?_
        · have : after (is ++ [(Str.rstrip ws (l.take 4), l.dropLast.drop 6)])
              = tagLine (after is) (Str.rstrip ws (l.take 4)) (l.dropLast.drop 6) := by
            unfold after
            rw [List.foldl_append]
            simp only [List.foldl_cons, List.foldl_nil, stepItem, tagLine, firstLine_id _ hc]
          rw [this]; exact h
        · intro i hi'
          rcases List.mem_append.1 hi' with hi' | hi'
          · exact hi i hi'
          · simp only [List.mem_singleton] at hi'
            subst hi'
            exact htag
      · split at h
        · split at h
          · simp at h
          · rename_i vs hvs
            rcases List.eq_nil_or_concat is with rfl | ⟨is0, i, rfl⟩
            · simp [after, Dict.get?] at hvs
            · rw [List.concat_eq_append] at *
              obtain ⟨t, v⟩ := i
              have hs0 : after (is0 ++ [(t, v)]) = stepItem (after is0) (t, v) := by unfold after; rw [List.foldl_append]; rfl
              rw [hs0] at h hvs
              simp only [stepItem] at h hvs
              refine ih (is0 ++ [(t, v ++ '\n' :: l.dropLast.drop 6)]) hll ?_ ?_
              · have hs1 : after (is0 ++ [(t, v ++ '\n' :: l.dropLast.drop 6)]) = stepItem (after is0) (t, v ++ '\n' :: l.dropLast.drop 6) := by
                  unfold after; rw [List.foldl_append]; rfl
                rw [hs1]
                simp only [stepItem, firstLine_cont]
                rw [← h]
                congr 1
                congr 1
                rw [get?_push_self] at hvs
                obtain rfl := Option.some.inj hvs
                rw [extendLast_concat]
                unfold push
                rw [set_set]
                split <;> simp
              · intro j hj
                rcases List.mem_append.1 hj with hj | hj
                · exact hi j (by simp [hj])
                · simp only [List.mem_singleton] at hj
                  subst hj
                  exact hi (t, v) (by simp)
        · split at h
          · simp only [Prod.mk.injEq, Except.ok.injEq] at h; exact ⟨is, hi, h.1.symm⟩
          · simp at h

/-- The contents of `t` in front of the first author. -/
def headPart (t : Str) : List (Str × Str) → List Str
  | [] => []
  | i :: is => if i.1 = auTag then [] else (if i.1 = t then [i.2] else []) ++ headPart t is

/-- First lines of the authors. -/
def firsts (is : List (Str × Str)) : List Str := (is.filter (fun i => i.1 = auTag)).map (fun i => firstLine i.2)

/-- The contents of `t` after the author `a`. -/
def ownOf (t : Str) : List (Str × Str) → Str → List Str
  | [], _ => []
  | i :: is, a => if i.1 = auTag ∧ firstLine i.2 = a then headPart t is else ownOf t is a

theorem gather_groups (t : Str) (ht : t ∈ authorBasedTags) (is : List (Str × Str)) (hn : (firsts is).Nodup) (mra : Option Str) :
    gather t mra is = (headPart t is).map (fun c => showAuthor mra ++ " : ".toList ++ c)
      ++ (firsts is).flatMap (fun a => (ownOf t is a).map (fun c => a ++ " : ".toList ++ c)) := by
  induction is generalizing mra with
  | nil => rfl
  | cons i is ih =>
    by_cases h : i.1 = auTag
    · have hf : firsts (i :: is) = firstLine i.2 :: firsts is := by simp [firsts, h]
      rw [hf, List.nodup_cons] at hn
      rw [gather, hf]
      simp only [h, if_true, headPart, List.map_nil, List.nil_append, List.flatMap_cons]
      rw [if_neg (fun (e : auTag = t) => auTag_not (e ▸ ht)), List.nil_append, ih hn.2]
      congr 1
      · simp [ownOf, h, showAuthor]
      · rw [List.flatMap_def, List.flatMap_def]
        congr 1
        apply List.map_congr_left
        intro b hb
        have hne : firstLine i.2 ≠ b := fun e => hn.1 (e ▸ hb)
        rw [ownOf, if_neg (fun e => hne e.2)]
    · have hf : firsts (i :: is) = firsts is := by simp [firsts, h]
      rw [hf] at hn
      rw [gather, hf]
      simp only [if_neg h, headPart, if_pos ht]
      have ho : ∀ b, ownOf t (i :: is) b = ownOf t is b := by
        intro b
        rw [ownOf, if_neg (fun e => h e.1)]
      simp only [ih hn, List.map_append, List.append_assoc, ho]
      congr 1
      split <;> simp

theorem keys_after (is : List (Str × Str)) (s : St) (t : Str) :
    t ∈ Dict.keys (is.foldl stepItem s).d → t ∈ Dict.keys s.d ∨ ∃ i ∈ is, i.1 = t := by
  induction is generalizing s with
  | nil => exact Or.inl
  | cons i is ih =>
    intro h
    rcases ih (stepItem s i) h with h | ⟨j, hj, e⟩
    · simp only [stepItem, push] at h
      rcases (Dict.mem_keys_set _ _ _ _).1 h with rfl | h
      · exact Or.inr ⟨i, by simp, rfl⟩
      · exact Or.inl h
    · exact Or.inr ⟨j, by simp [hj], e⟩

theorem wf_after (is : List (Str × Str)) (s : St) (h : Dict.WF s.d) : Dict.WF (is.foldl stepItem s).d := by
  induction is generalizing s with
  | nil => exact h
  | cons i is ih => exact ih _ (Dict.WF_set h _ _)

/-- What was read can be written. -/
theorem image_ok (is : List (Str × Str)) (hi : ∀ i ∈ is, TagOk alpha i.1) (hn : (authors (after is).d).Nodup)
    (hnames : ∀ a ∈ authors (after is).d, NameOk a) (hnone : "None".toList ∉ authors (after is).d)
    (hatt : ∀ t ∈ attachedTags, ∀ x ∈ (Dict.get? (after is).d t).getD [], ∃ a ∈ authors (after is).d, ∃ c, x = a ++ " : ".toList ++ c) :
    RecordOk alpha (after is).d := by
  have hv : ∀ t, (Dict.get? (after is).d t).getD [] = gather t none is := by
    intro t
    have := vals_foldl ⟨[], pmid, none⟩ is t
    rw [show vals (List.foldl stepItem ⟨[], pmid, none⟩ is).d t = (Dict.get? (after is).d t).getD [] from rfl] at this
    rw [this]
    rfl
  have hau : authors (after is).d = firsts is := by
    have h0 : authors (after is).d = (is.filter (fun i => i.1 = auTag)).map Prod.snd := by
      rw [authors, hv, show "AU".toList = auTag from rfl, gather_plain _ auTag_not]
    rw [h0]
    apply List.map_congr_left
    intro i hi'
    exact (firstLine_id i.2 (hnames i.2 (by rw [h0]; exact List.mem_map_of_mem hi')).1).symm
  refine ⟨wf_after is _ Dict.WF_nil, ?_, foldl_ne _ _ (by intro t; simp [Dict.get?]), hn, hnames, ⟨fun t a => ownOf t is a, ?_⟩⟩
  · intro t ht
    rcases keys_after is _ t ht with h | ⟨i, hi', rfl⟩
    · simp [Dict.keys] at h
    · exact hi i hi'
  · intro t ht
    have hg := gather_groups t ht is (by rw [← hau]; exact hn) none
    rw [hv, hau]
    have hh : headPart t is = [] := by
      cases hp : headPart t is with
      | nil => rfl
      | cons c cs =>
        exfalso
        obtain ⟨a, ha, c', e⟩ := hatt t ht ("None".toList ++ " : ".toList ++ c) (by rw [hv, hg, hp]; simp [showAuthor])
        have h1 := name_attached "None".toList c ⟨by decide, by rw [← Str.contains_iff]; decide⟩
        rw [e, name_attached a c' (hnames a ha)] at h1
        exact hnone (h1 ▸ ha)
    rw [hg, hh]
    rfl

/-! ## The reader of files -/

theorem parse_rest_length (s : St) (l : Str) (ls : List Str) : (parseFrom ws alpha s (l :: ls)).2.length ≤ ls.length := by
  induction ls generalizing s l with
  | nil =>
    rw [parseFrom]
    split
    · simp
    · split
      · simp [parseFrom]
      · split
        · split
          · simp
          · simp [parseFrom]
        · split <;> simp
  | cons m ls ih =>
    rw [parseFrom]
    split
    · simp
    · split
      · exact (ih _ m).trans (by simp)
      · split
        · split
          · simp
          · exact (ih _ m).trans (by simp)
        · split <;> simp

theorem loop_total (n : Nat) (ls : List Str) (r : Res) (h : ls.length < n) : loop ws alpha n ls r ≠ none := by
  induction n generalizing ls r with
  | zero => omega
  | succ n ih =>
    cases ls with
    | nil => simp [loop]
    | cons l ls =>
      rw [loop]
      simp only [List.length_cons] at h
      split
      · simp only []
        have hr := parse_rest_length (ws := ws) (alpha := alpha) ⟨[], pmid, none⟩ l ls
        split
        · exact ih _ _ (by unfold recordParser; omega)
        · simp
      · split <;> exact ih _ _ (by omega)

theorem loop_mono (n m : Nat) (ls : List Str) (r : Res) (x : Except PErr Res) (h : loop ws alpha n ls r = some x) (hm : n ≤ m) :
    loop ws alpha m ls r = some x := by
  induction n generalizing m ls r with
  | zero => simp [loop] at h
  | succ n ih =>
    obtain ⟨m, rfl⟩ : ∃ k, m = k + 1 := ⟨m - 1, by omega⟩
    cases ls with
    | nil => simpa [loop] using h
    | cons l ls =>
      rw [loop] at h ⊢
      split
      · rename_i hs
        rw [if_pos hs] at h
        simp only [] at h ⊢
        cases hr : mkRec (recordParser ws alpha (l :: ls)).1 with
        | ok r => rw [hr] at h; exact ih m _ _ h (by omega)
        | error e => rw [hr] at h; exact h
      · rename_i hs
        rw [if_neg hs] at h
        split
        · rename_i he
          rw [if_pos he] at h
          exact ih m _ _ h (by omega)
        · rename_i he
          rw [if_neg he] at h
          exact ih m _ _ h (by omega)

/-- The loop with enough rounds. -/
def run (ws alpha : Char → Bool) (ls : List Str) (r : Res) : Option (Except PErr Res) := loop ws alpha (ls.length + 1) ls r

theorem run_eq (n : Nat) (ls : List Str) (r : Res) (h : ls.length < n) : loop ws alpha n ls r = run ws alpha ls r := by
  obtain ⟨x, hx⟩ := Option.ne_none_iff_exists'.1 (loop_total (ws := ws) (alpha := alpha) (ls.length + 1) ls r (by omega))
  rw [run, hx]
  exact loop_mono _ _ ls r x hx (by omega)

theorem run_cons (l : Str) (ls : List Str) (res : Res) :
    run ws alpha (l :: ls) res =
      if "PMID- ".toList.isPrefixOf l then
        match mkRec (recordParser ws alpha (l :: ls)).1 with
        | .ok r => run ws alpha (recordParser ws alpha (l :: ls)).2 { res with recs := addRec res.recs r }
        | .error e => some (.error e)
      else if l = ['\n'] then run ws alpha ls res
      else run ws alpha ls { res with error := true } := by
  have hr := parse_rest_length (ws := ws) (alpha := alpha) ⟨[], pmid, none⟩ l ls
  rw [run, List.length_cons, loop]
  split
  · cases hm : mkRec (recordParser ws alpha (l :: ls)).1 with
    | ok r => simp only [hm]; exact run_eq _ _ _ (by unfold recordParser; omega)
    | error e => simp only [hm]
  · rfl

theorem medlineParser_eq (text : Str) (h : Lines.fileLines text ≠ []) : medlineParser ws alpha text = run ws alpha (Lines.fileLines text) ⟨[], false⟩ := by
  unfold medlineParser
  cases hl : Lines.fileLines text with
  | nil => exact absurd hl h
  | cons l ls => exact run_eq _ _ _ (by simp)

end Verif.Lemmas.Medline
