import Verif.Spec.RecordMapping
import Verif.Props.RecordAccessTables
import Verif.Props.WosFields
import Verif.Props.CiteParse
import Verif.Model.Pipeline

/-! # C105: a record as a mapping -/
set_option autoImplicit false
set_option linter.unusedSimpArgs false
namespace Verif.Props.RecordMapping
open Verif.Py Verif.Model.RecordAccess Verif.Model.RecordMapping Verif.Spec.RecordMapping
variable {κ Raw V : Type} [DecidableEq κ]

theorem reads_snoc {val : κ → Raw → Except AErr V} {fs : List (κ × Raw)} {out : List (κ × V)} (h : Reads val fs out) {k : κ} {raw : Raw} {v : V}
    (hv : val k raw = .ok v) : Reads val (fs ++ [(k, raw)]) (out ++ [(k, v)]) := by
  induction fs generalizing out with
  | nil => rw [show out = [] from h]; exact ⟨v, [], hv, rfl, rfl⟩
  | cons f fs ih =>
    obtain ⟨w, rest, h1, rfl, h3⟩ := h
    exact ⟨w, rest ++ [(k, v)], h1, rfl, ih h3⟩

section
variable {C : Cls κ Raw V} {rank : κ → Nat} {N : Nat} (hC : GoodCls C rank N) {fields : Dict κ Raw} (hw : fields.WF) (hf : NoClash C fields)
include hC hw hf

theorem field_value {R : Rec κ Raw V} (hR : R.fields = fields) (hs : Sound C N R) {k : κ} {raw : Raw} (hk : (k, raw) ∈ fields) :
    (getitem C N R k).1 = C.proc k raw ∧ (getitem C N R k).2.fields = fields ∧ Sound C N (getitem C N R k).2 := by
  obtain ⟨h1, h2, h3⟩ := getitem_sound hC N k (hC.bound k) R (by rw [hR]; exact hf) hs
  refine ⟨?_, by rw [h3, hR], h2⟩
  rw [h1, hR]
  exact eval_field C fields N k raw (Dict.get?_of_mem hw hk)

theorem next_right {R : Rec κ Raw V} (hR : R.fields = fields) (hs : Sound C N R) {it : Iter κ V} (hit : Right C.proc fields it) :
    (next C N R it).1.fields = fields ∧ Sound C N (next C N R it).1 ∧ Right C.proc fields (next C N R it).2 := by
  obtain ⟨done, rest, h1, h2, h3⟩ := hit
  unfold next
  rcases h3 with ⟨h3, h4⟩ | ⟨k, raw, rest', e, h3, h4, h5, h6⟩
  · cases rest with
    | nil =>
      rw [h4]
      exact ⟨hR, hs, done, [], h1, h2, .inl ⟨h3, h4⟩⟩
    | cons f rest =>
      obtain ⟨k, raw⟩ := f
      rw [h4]
      simp only [List.map_cons]
      obtain ⟨g1, g2, g3⟩ := field_value hC hw hf hR hs (k := k) (raw := raw) (by rw [h1]; simp)
      rcases hg : getitem C N R k with ⟨r, R'⟩
      rw [hg] at g1 g2 g3
      dsimp only at g1 g2 g3
      cases r with
      | ok v =>
        refine ⟨g2, g3, done ++ [(k, raw)], rest, by rw [h1]; simp, reads_snoc h2 g1.symm, .inl ⟨h3, rfl⟩⟩
      | error e =>
        exact ⟨g2, g3, done, (k, raw) :: rest, h1, h2, .inr ⟨k, raw, rest, e, rfl, g1.symm, rfl, rfl⟩⟩
  · rw [h6]
    exact ⟨hR, hs, done, rest, h1, h2, .inr ⟨k, raw, rest', e, h3, h4, h5, h6⟩⟩

/-- **C105, going through a record.** However reads and several iterators are interleaved, the record keeps its fields, and each iterator gives the tags of the record in their order,
each once, with the value reading it gives. It stops early only at a field that cannot be read, with the exception of that field. -/
theorem C105_iteration (acts : List (Act κ V)) :
    let s := acts.foldl (act C N) (fresh fields, [])
    s.1.fields = fields ∧ ∀ it ∈ s.2, Right C.proc fields it := by
  have : ∀ (s : St κ Raw V), s.1.fields = fields → Sound C N s.1 → (∀ it ∈ s.2, Right C.proc fields it) →
      let t := acts.foldl (act C N) s
      t.1.fields = fields ∧ ∀ it ∈ t.2, Right C.proc fields it := by
    induction acts with
    | nil => intro s h1 _ h3; exact ⟨h1, h3⟩
    | cons a acts ih =>
      intro s h1 h2 h3
      rw [List.foldl_cons]
      cases a with
      | read o =>
        obtain ⟨e1, e2⟩ := after_sound hC fields hf [o] s.1 h1 h2
        exact ih _ e1 e2 h3
      | start =>
        refine ih _ h1 h2 ?_
        intro it hit
        rcases List.mem_append.1 hit with hit | hit
        · exact h3 it hit
        · simp only [List.mem_cons, List.not_mem_nil, or_false] at hit
          subst hit
          exact ⟨[], fields, rfl, rfl, .inl ⟨rfl, by simp [start, keys, h1]⟩⟩
      | next i =>
        unfold act
        dsimp only
        cases hi : s.2[i]? with
        | none => exact ih _ h1 h2 h3
        | some it =>
          obtain ⟨e1, e2, e3⟩ := next_right hC hw hf h1 h2 (h3 it (List.mem_of_getElem? hi))
          refine ih _ e1 e2 ?_
          intro it' hit'
          rcases List.mem_or_eq_of_mem_set hit' with h | rfl
          · exact h3 it' h
          · exact e3
  exact this _ rfl (sound_fresh C N fields) (by simp)

theorem exhaust_right (m : Nat) {R : Rec κ Raw V} (hR : R.fields = fields) (hs : Sound C N R) {it : Iter κ V} (hit : Right C.proc fields it)
    (hm : it.todo.length ≤ m) : Right C.proc fields (exhaust C N m R it).2 ∧ (exhaust C N m R it).2.todo = [] := by
  induction m generalizing R it with
  | zero => exact ⟨hit, List.eq_nil_of_length_eq_zero (Nat.le_zero.1 hm)⟩
  | succ m ih =>
    obtain ⟨e1, e2, e3⟩ := next_right hC hw hf hR hs hit
    refine ih e1 e2 e3 ?_
    unfold next
    split
    · next h => rw [h]; simp
    · next k ks h =>
      rw [h] at hm
      simp only [List.length_cons] at hm
      split
      · simpa using hm
      · simp

omit hC hw hf [DecidableEq κ] in
theorem reads_keys {val : κ → Raw → Except AErr V} {fs : List (κ × Raw)} {out : List (κ × V)} (h : Reads val fs out) : out.map Prod.fst = fs.map Prod.fst := by
  induction fs generalizing out with
  | nil => rw [show out = [] from h]; rfl
  | cons f fs ih =>
    obtain ⟨w, rest, h1, rfl, h3⟩ := h
    simp [ih h3]

omit hC hw hf [DecidableEq κ] in
theorem reads_all {val : κ → Raw → Except AErr V} {fs : List (κ × Raw)} {out : List (κ × V)} (h : Reads val fs out) : ∀ f ∈ fs, ∃ v, val f.1 f.2 = .ok v := by
  induction fs generalizing out with
  | nil => simp
  | cons f fs ih =>
    obtain ⟨w, rest, h1, rfl, h3⟩ := h
    intro f' hf'
    rcases List.mem_cons.1 hf' with rfl | hf'
    · exact ⟨w, h1⟩
    · exact ih h3 f' hf'

/-- **C105, `items()` and `dict(R)`.** After any reads: when all fields can be read, the list has for each tag its value, in the order of the file; otherwise the
exception is that of the first field that cannot be read. -/
theorem C105_items (ops : List (Op κ V)) :
    let R := ops.foldl (after C N) (fresh fields)
    ((∀ f ∈ fields, ∃ v, C.proc f.1 f.2 = .ok v) → ∃ l, items C N R = .ok l ∧ Reads C.proc fields l ∧
      values C N R = .ok (l.map Prod.snd) ∧ l.map Prod.fst = fields.map Prod.fst) ∧
    ∀ done k raw rest e, fields = done ++ (k, raw) :: rest → (∀ f ∈ done, ∃ v, C.proc f.1 f.2 = .ok v) → C.proc k raw = .error e →
      items C N R = .error e ∧ values C N R = .error e := by
  intro R
  obtain ⟨h1, h2⟩ := after_sound hC fields hf ops (fresh fields) rfl (sound_fresh C N fields)
  have hst : Right C.proc fields (start R) := ⟨[], fields, rfl, rfl, .inl ⟨rfl, by simp [start, keys, R, h1]⟩⟩
  obtain ⟨⟨done, rest, e1, e2, e3⟩, e4⟩ := exhaust_right hC hw hf (len R) h1 h2 hst (by simp [start, keys, len])
  unfold values items
  dsimp only
  generalize (exhaust C N (len R) R (start R)).2 = it at e1 e2 e3 e4
  constructor
  · intro hall
    rcases e3 with ⟨e5, e6⟩ | ⟨k, raw, rest', e, e5, e6, _⟩
    · rw [e4] at e6
      have hr : rest = [] := by
        cases rest with
        | nil => rfl
        | cons _ _ => cases e6
      rw [hr, List.append_nil] at e1
      subst e1
      rw [e5]
      exact ⟨it.out, rfl, e2, rfl, reads_keys e2⟩
    · obtain ⟨v, hv⟩ := hall (k, raw) (by rw [e1, e5]; simp)
      rw [e6] at hv; cases hv
  · intro d k raw r e g1 g2 g3
    rcases e3 with ⟨e5, e6⟩ | ⟨k', raw', rest', e', e5, e6, e7, _⟩
    · rw [e4] at e6
      have hr : rest = [] := by
        cases rest with
        | nil => rfl
        | cons _ _ => cases e6
      rw [hr, List.append_nil] at e1
      subst e1
      obtain ⟨v, hv⟩ := reads_all e2 (k, raw) (by rw [g1]; simp)
      rw [g3] at hv; cases hv
    · have : d = done ∧ (k, raw) :: r = rest := by
        have hh : d ++ (k, raw) :: r = done ++ rest := by rw [← g1, ← e1]
        rw [List.append_eq_append_iff] at hh
        rcases hh with ⟨a, ha, hb⟩ | ⟨a, ha, hb⟩
        · cases a with
          | nil => exact ⟨by simpa using ha.symm, by simpa using hb⟩
          | cons x a =>
            simp only [List.cons_append, List.cons.injEq] at hb
            obtain ⟨v, hv⟩ := reads_all e2 (k, raw) (by rw [ha, hb.1]; simp)
            rw [g3] at hv; cases hv
        · cases a with
          | nil => exact ⟨by simpa using ha, by simpa using hb.symm⟩
          | cons x a =>
            rw [e5] at hb
            simp only [List.cons_append, List.cons.injEq] at hb
            obtain ⟨v, hv⟩ := g2 (k', raw') (by rw [ha, hb.1]; simp)
            rw [e6] at hv; cases hv
      rw [e5] at this
      obtain ⟨rfl, h⟩ := this
      simp only [List.cons.injEq, Prod.mk.injEq] at h
      obtain ⟨⟨rfl, rfl⟩, _⟩ := h
      rw [g3] at e6
      injection e6 with e6
      subst e6
      rw [e7]
      exact ⟨rfl, rfl⟩

/-- **C105, the listing and the tests.** After any reads: the listing has the tags of the file, each once; `len` is their number; the raw listings are the fields; every tag listed
is `in` the record, and reading it gives its value. -/
theorem C105_listing (ops : List (Op κ V)) :
    let R := ops.foldl (after C N) (fresh fields)
    keys R = fields.map Prod.fst ∧ (keys R).Nodup ∧ len R = (keys R).length ∧ itemsRaw R = fields ∧ valuesRaw R = fields.map Prod.snd ∧
      ∀ k raw, (k, raw) ∈ fields → (contains C N R k).1 = .ok true ∧ (getitem C N R k).1 = C.proc k raw := by
  intro R
  obtain ⟨h1, h2⟩ := after_sound hC fields hf ops (fresh fields) rfl (sound_fresh C N fields)
  refine ⟨by simp [keys, R, h1], by rw [show keys R = fields.map Prod.fst by simp [keys, R, h1]]; exact hw, by simp [keys, len], h1, by simp [valuesRaw, R, h1], fun k raw hk => ?_⟩
  refine ⟨?_, (field_value hC hw hf h1 h2 hk).1⟩
  unfold contains
  rw [h1, Dict.get?_of_mem hw hk]
  rfl

omit hw in
/-- After any reads a pair is in `items()` exactly when reading the name gives the value. -/
theorem C105_pairs [DecidableEq V] (ops : List (Op κ V)) (k : κ) (v : V) :
    itemsContains C N (ops.foldl (after C N) (fresh fields)) k v = .ok true ↔ (getitem C N (fresh fields) k).1 = .ok v := by
  have h := (C28_history_independent hC fields hf ops k).2.1
  unfold itemsContains
  rw [h]
  cases (getitem C N (fresh fields) k).1 with
  | ok w => simp
  | error e => cases e <;> simp

/-- The law of mappings `k in R` exactly when `R[k]` does not raise `KeyError`: it holds after any reads when the processing of no field raises `KeyError`. -/
theorem C105_contains_partial (ops : List (Op κ V)) (hp : ∀ f ∈ fields, C.proc f.1 f.2 ≠ .error .keyError) (k : κ) :
    let R := ops.foldl (after C N) (fresh fields)
    ((contains C N R k).1 = .ok false ↔ (getitem C N R k).1 = .error .keyError) ∧
    (∀ v, (getitem C N R k).1 = .ok v → (contains C N R k).1 = .ok true) := by
  intro R
  obtain ⟨h1, h2⟩ := after_sound hC fields hf ops (fresh fields) rfl (sound_fresh C N fields)
  have hf' : NoClash C R.fields := by rw [h1]; exact hf
  have hg := (getitem_sound hC N k (hC.bound k) R hf' h2).1
  have hc := (contains_sound hC R hf' h2 k).1
  rw [hg, hc]
  by_cases hp1 : ((R.fields.get? k).isSome || (altField C R k).isSome) = true
  · rw [if_pos hp1]
    have hne : eval C R.fields N k ≠ .error .keyError := by
      cases hk : R.fields.get? k with
      | some raw =>
        rw [eval_field C _ N k raw hk]
        rw [h1] at hk
        exact hp _ (Dict.mem_of_get? hk)
      | none =>
        rw [hk] at hp1
        cases ha : altField C R k with
        | none => rw [ha] at hp1; cases hp1
        | some p =>
          rw [eval_alt C _ N k p hk (by rw [← altField_fields]; exact ha)]
          have := (altField_some ha).2
          rw [h1] at this
          exact hp _ (Dict.mem_of_get? this)
    refine ⟨⟨fun h => (by cases h), fun h => absurd h hne⟩, fun _ _ => rfl⟩
  · rw [if_neg hp1]
    cases he : eval C R.fields N k with
    | ok v => simp
    | error e => cases e <;> simp

end

/-- The law fails for Web of Science records: `'PD' in R` is true and the tag is listed, but `R['PD']` raises `KeyError` when the date is not one of the known forms, and
`R.get('PD', default)` gives the default. -/
theorem C105_contains_wrong (W : Model.Pipeline.World) (h : W.prims = WosFields.ascii) :
    let R : Rec String (List Str) Model.WosFields.FVal := fresh [("PD", ["Autumn".toList]), ("UT", ["WOS:1".toList])]
    keys R = ["PD", "UT"] ∧ (contains (Model.Pipeline.cls W) 3 R "PD").1 = .ok true ∧ (getitem (Model.Pipeline.cls W) 3 R "PD").1 = .error .keyError ∧
      ∀ d, (get (Model.Pipeline.cls W) 3 R "PD" d).1 = .ok d := by
  have hp : (Model.Pipeline.cls W).proc "PD" ["Autumn".toList] = .error .keyError := by
    have hv : Model.WosFields.wosValue W.prims "PD".toList ["Autumn".toList] = .error .keyError := by rw [h]; rfl
    unfold Model.Pipeline.cls
    simp only [hv]
  have hg : (getitem (Model.Pipeline.cls W) 3 (fresh [("PD", ["Autumn".toList]), ("UT", ["WOS:1".toList])]) "PD").1 = .error .keyError := by
    show (store (Model.Pipeline.cls W) _ "PD" ((Model.Pipeline.cls W).proc "PD" ["Autumn".toList])).1 = _
    rw [hp]; rfl
  exact ⟨rfl, rfl, hg, fun d => (C28_get _ _ _ _ d).1 hg⟩

/-- One field that cannot be read hides those behind it: `items()` raises `ValueError` for a year that is not one, although the other fields are fine. -/
theorem C105_hidden (W : Model.Pipeline.World) (h : W.prims = WosFields.ascii) :
    items (Model.Pipeline.cls W) 3 (fresh [("PY", ["in press".toList]), ("UT", ["WOS:1".toList])]) = .error .other := by
  have hp : (Model.Pipeline.cls W).proc "PY" ["in press".toList] = .error .other := by
    have hv : Model.WosFields.wosValue W.prims "PY".toList ["in press".toList] = .error .valueError := by rw [h]; rfl
    unfold Model.Pipeline.cls
    simp only [hv]
  have hn : next (Model.Pipeline.cls W) 3 (fresh [("PY", ["in press".toList]), ("UT", ["WOS:1".toList])]) ⟨["PY", "UT"], [], none⟩ =
      (fresh [("PY", ["in press".toList]), ("UT", ["WOS:1".toList])], ⟨[], [], some .other⟩) := by
    show (match store (Model.Pipeline.cls W) _ "PY" ((Model.Pipeline.cls W).proc "PY" ["in press".toList]) with
      | (.ok v, R') => (R', (⟨["UT"], [] ++ [("PY", v)], none⟩ : Iter String _))
      | (.error e, R') => (R', ⟨[], [], some e⟩)) = _
    rw [hp]; rfl
  have he : exhaust (Model.Pipeline.cls W) 3 2 (fresh [("PY", ["in press".toList]), ("UT", ["WOS:1".toList])]) ⟨["PY", "UT"], [], none⟩ =
      (fresh [("PY", ["in press".toList]), ("UT", ["WOS:1".toList])], ⟨[], [], some .other⟩) := by
    unfold exhaust
    rw [hn]
    rfl
  unfold items
  have hl : len (fresh [("PY", ["in press".toList]), ("UT", ["WOS:1".toList])] : Rec String (List Str) Model.WosFields.FVal) = 2 := rfl
  have hs : start (fresh [("PY", ["in press".toList]), ("UT", ["WOS:1".toList])] : Rec String (List Str) Model.WosFields.FVal) = ⟨["PY", "UT"], [], none⟩ := rfl
  rw [hl, hs, he]

/-- The long name of a tag is `in` a Web of Science record and can be read, but is not listed; and `('title', …) in R.items()` is true although the listing of `items()` has no such pair. -/
theorem C105_long_names {W : Model.Pipeline.World} {fields : Dict String (List Str)} (hf : NoClash (Model.Pipeline.cls W) fields)
    (tag long : String) (hw : Spec.TagTable.Wos tag.toList long.toList) (raw : List Str) (hk : fields.get? tag = some raw) (hne : tag ≠ long)
    (v : Model.WosFields.FVal) (hv : (Model.Pipeline.cls W).proc tag raw = .ok v) :
    (contains (Model.Pipeline.cls W) 3 (fresh fields) long).1 = .ok true ∧ itemsContains (Model.Pipeline.cls W) 3 (fresh fields) long v = .ok true ∧
      long ∉ keys (fresh fields : Rec String (List Str) Model.WosFields.FVal) := by
  have a1 : (Model.Pipeline.cls W).alt tag = some long := by
    show (Model.TagNames.wosAlt tag.toList).map String.ofList = _
    rw [(C47_wos_alternatives _ _).2 (.inl hw)]; simp
  have a2 : (Model.Pipeline.cls W).alt long = some tag := by
    show (Model.TagNames.wosAlt long.toList).map String.ofList = _
    rw [(C47_wos_alternatives _ _).2 (.inr hw)]; simp
  have hl : fields.get? long = none := by
    cases h : fields.get? long with
    | none => rfl
    | some r => exact absurd ⟨by rw [hk]; rfl, by rw [h]; rfl⟩ (hf tag long a1 (Ne.symm hne))
  have ha : altField (Model.Pipeline.cls W) (fresh fields) long = some (tag, raw) := by
    unfold altField
    rw [a2]
    simp only [fresh, hk]
  refine ⟨?_, ?_, ?_⟩
  · unfold contains
    rw [ha]
    simp
  · unfold itemsContains getitem
    have hm : ((fresh fields : Rec String (List Str) Model.WosFields.FVal).memo.get? long) = none := rfl
    have hl' : (fresh fields : Rec String (List Str) Model.WosFields.FVal).fields.get? long = none := hl
    simp only [hm, hl', ha, hv, store, a1]
    simp
  · show long ∉ fields.map Prod.fst
    exact (Dict.get?_eq_none_iff fields long).1 hl

/-- **C105, texts.** After any reads `str` shows the class and the title, or the id when there is no title; `repr` shows the class and the id, or that the record is bad. -/
theorem C105_texts {Raw V : Type} {C : Cls String Raw V} {rank : String → Nat} {N : Nat} (hC : GoodCls C rank N) {fields : Dict String Raw} (hf : NoClash C fields)
    (ops : List (Op String V)) (text : V → Str) (cls ident : Str) :
    let R := ops.foldl (after C N) (fresh fields)
    (∀ v, (getitem C N (fresh fields) "title").1 = .ok v → str C N text cls ident R = .ok (cls ++ '(' :: text v ++ [')'])) ∧
    ((getitem C N (fresh fields) "title").1 = .error .keyError → str C N text cls ident R = .ok (cls ++ '(' :: ident ++ [')'])) ∧
    repr false cls ident = "<metaknowledge.".toList ++ cls ++ " object ".toList ++ ident ++ ['>'] ∧
    repr true cls ident = "<metaknowledge.".toList ++ cls ++ " object BAD>".toList := by
  intro R
  have h := (C28_history_independent hC fields hf ops "title").2.1
  refine ⟨fun v hv => ?_, fun hv => ?_, rfl, rfl⟩
  · unfold str
    rw [h, hv]
    simp
  · unfold str
    rw [h, hv]
    simp

/-- The class of Web of Science records meets the hypotheses. -/
theorem wos_class (W : Model.Pipeline.World) : GoodCls (Model.Pipeline.cls W) (tagRank []) 3 := by
  refine C28_wos_class _ (onString_invol _ ?_) ?_ _ W.truthy W.fin W.ident W.noGrants
  · intro a b h; rw [C47_wos_alternatives] at h ⊢; exact h.symm
  · intro k hk
    have : Model.TagNames.wosAlt k.toList = none := by
      simp only [List.mem_cons, List.not_mem_nil, or_false] at hk
      rcases hk with rfl | rfl | rfl <;> decide +kernel
    unfold onString; rw [this]; rfl

private def w : Model.Pipeline.World := ⟨Char.isWhitespace, WosFields.ascii, CiteParse.ascii, fun _ => true, fun _ => .error .other, .text [], .texts []⟩

private def fs : Dict String (List Str) := [("TI", ["A".toList, "title".toList]), ("PY", ["2001".toList]), ("PD", ["Autumn".toList]), ("UT", ["WOS:1".toList])]

private theorem fs_clash : NoClash (Model.Pipeline.cls w) fs := by
  intro k a ha hne ⟨h1, h2⟩
  obtain ⟨b, hb, rfl⟩ := Option.map_eq_some_iff.1 (show (Model.TagNames.wosAlt k.toList).map String.ofList = some a from ha)
  have hk : k ∈ fs.map Prod.fst := (Dict.mem_keys_iff fs k).2 h1
  have tab : ∀ k ∈ fs.map Prod.fst, ∀ b, Model.TagNames.wosAlt k.toList = some b → (fs.get? (String.ofList b)).isSome = false := by
    have : ∀ k ∈ fs.map Prod.fst, ∀ b ∈ (Model.TagNames.wosAlt k.toList).toList, (fs.get? (String.ofList b)).isSome = false := by decide +kernel
    intro k hk b hb
    exact this k hk b (by rw [hb]; simp)
  rw [tab k hk b hb] at h2
  cases h2

/-- Two iterators and reads in between: the second one has got further, and both end at the date that cannot be read. -/
example : let s := [Act.start, .next 0, .read (.item "title"), .start, .next 1, .next 1, .next 1, .next 0].foldl (act (Model.Pipeline.cls w) 3) (fresh fs, [])
    s.2.map (fun it => (it.out.length, it.todo)) = [(2, ["PD", "UT"]), (2, [])] := by decide +kernel

example (acts : List (Act String Model.WosFields.FVal)) :
    (acts.foldl (act (Model.Pipeline.cls w) 3) (fresh fs, [])).1.fields = fs := (C105_iteration (wos_class w) (by unfold Dict.WF; decide) fs_clash acts).1

/-- Without the date all fields can be read. -/
example : ((items (Model.Pipeline.cls w) 3 (fresh (fs.erase "PD"))).toOption.map (·.length)) = some 3 ∧
    (itemsContains (Model.Pipeline.cls w) 3 (fresh fs) "year" (.num 2001)).toOption = some true := by decide +kernel

end Verif.Props.RecordMapping
