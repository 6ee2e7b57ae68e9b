import Verif.Model.ProQuestPipeline
import Verif.Spec.ProQuestPipeline
import Verif.Props.ProQuestFile
import Verif.Props.OtherFields
import Verif.Props.CommonNames
import Verif.Lemmas.Pipeline
import Verif.Spec.Counting

/-! # Lemmas for C111 -/
set_option autoImplicit false
set_option linter.unusedSimpArgs false
namespace Verif.Lemmas.ProQuestPipeline
open Verif.Py Verif.Model.OtherFields Verif.Model.RecordAccess Verif.Model.ProQuestPipeline Verif.Spec.ProQuestPipeline
  Verif.Spec.ProQuestFile Verif.Props Verif.Model.WosFields Verif.Model.Series Verif.Spec
open Verif.Model.ProQuest hiding separator
open Verif.Spec.ProQuest (separator)

theorem update_values {κ β : Type} [DecidableEq κ] (P : β → Prop) (facts : List (κ × β)) (d : Dict κ β) (hd : ∀ k v, d.get? k = some v → P v)
    (hf : ∀ e ∈ facts, P e.2) : ∀ k v, (Dict.update d facts).get? k = some v → P v := by
  unfold Dict.update
  induction facts generalizing d with
  | nil => exact hd
  | cons e facts ih =>
    rw [List.foldl_cons]
    refine ih _ ?_ (fun e he => hf e (List.mem_cons_of_mem _ he))
    intro k v h
    rw [Dict.get?_set] at h
    split at h
    · rw [← Option.some.inj h]; exact hf e (by simp)
    · exact hd k v h

theorem says_values (ws : Char → Bool) {r : Spec.ProQuest.Record} {facts : List (Str × List Str)} (h : r.Says ws facts) : ∀ e ∈ facts, e.2 ≠ [] := by
  have hent : ∀ (es : List Spec.ProQuest.Entry) (fs : List (List (Str × List Str))), List.Forall₂ (Spec.ProQuest.Entry.Says ws) es fs → ∀ e ∈ fs.flatten, e.2 ≠ [] := by
    intro es fs h
    induction h with
    | nil => intro e he; cases he
    | cons h _ ih =>
      intro e he
      rw [List.flatten_cons, List.mem_append] at he
      rcases he with he | he
      · cases h with
        | plain => rw [List.mem_singleton] at he; subst he; simp
        | author => simp only [List.mem_cons, List.not_mem_nil, or_false] at he; rcases he with rfl | rfl <;> simp
      · exact ih e he
  cases h with
  | full name entries facts h =>
    intro e he
    rcases List.mem_cons.1 he with rfl | he
    · simp
    · exact hent _ _ h e he
  | cut name entries facts l v h _ =>
    intro e he
    rw [List.cons_append] at he
    rcases List.mem_cons.1 he with rfl | he
    · simp
    · rcases List.mem_append.1 he with he | he
      · exact hent _ _ h e he
      · rw [List.mem_singleton] at he; subst he; simp

theorem reads_values (ws : Char → Bool) {body : List Str} {fields : Paper} (h : Reads ws body fields) : ∀ k v, fields.get? k = some v → v ≠ [] := by
  rcases h.2 with ⟨_, rfl⟩ | ⟨r, facts, _, _, h3, rfl⟩
  · intro k v h; cases h
  · exact update_values (fun v : List Str => v ≠ []) facts [] (by intro k v h; cases h) (says_values ws h3)

variable {W : World} {lines : List Str} {papers : List Paper}

theorem filled (h : FileOk W.ws W.toInt lines papers) : ∀ p ∈ papers, ∀ k v, p.get? k = some v → v ≠ [] := by
  obtain ⟨front, index, docs, tail, h1, _, h3⟩ := h.layout
  clear h h1
  induction h3 with
  | nil => intro p hp; cases hp
  | cons hd _ ih =>
    intro p hp
    rcases List.mem_cons.1 hp with rfl | hp
    · obtain ⟨_, _, _, _, hr, _⟩ := hd
      exact reads_values _ hr
    · exact ih p hp

theorem rec_of (h : FileOk W.ws W.toInt lines papers) {p : Paper} (hp : p ∈ papers) : (mkRec p).bad = false ∧
    (mkRec p).id = "PROQUEST:".toList ++ (firstOf p "ProQuest document ID").getD [] := by
  obtain ⟨v, hv⟩ := h.number p hp
  have h1 : ∃ more, p.get? "ProQuest document ID".toList = some (v :: more) := by
    unfold firstOf at hv
    cases hg : p.get? "ProQuest document ID".toList with
    | none => rw [hg] at hv; cases hv
    | some l =>
      rw [hg] at hv
      cases l with
      | nil => cases hv
      | cons x l => simp only [Option.bind_some, List.head?_cons, Option.some.injEq] at hv; subst hv; exact ⟨l, rfl⟩
  obtain ⟨more, h1⟩ := h1
  obtain ⟨h2, h3⟩ := (ProQuestFile.C73_record p).2.1 v more h1
  exact ⟨h3, by rw [h2, hv]; rfl⟩

theorem fields_of (p : Paper) : (mkRec p).fields = p := (ProQuestFile.C73_record p).1

theorem text_lines (h : FileOk W.ws W.toInt lines papers) : Lines.fileLines lines.flatten = lines := by
  unfold Lines.fileLines
  rw [Lines.univ_id _ (by
    intro hm
    obtain ⟨l, hl, hm⟩ := List.mem_flatten.1 hm
    obtain ⟨x, rfl, _, h2⟩ := h.complete l hl
    simp at hm
    exact h2 hm)]
  have := Lines.lines_flatten lines (fun l hl => by obtain ⟨x, h1, h2, _⟩ := h.complete l hl; exact ⟨x, h1, h2⟩) []
  rw [List.append_nil] at this
  rw [this]
  simp [Lines.lines]

theorem records_eq (order : List Rec → List Rec) (h : FileOk W.ws W.toInt lines papers) :
    records W order lines.flatten = some (order (papers.map mkRec)) := by
  have hl := text_lines h
  obtain ⟨rest, hr⟩ : ∃ rest, lines = separator :: "\n".toList :: "Report Information from ProQuest\n".toList :: rest := by
    refine ⟨lines.drop 3, ?_⟩
    conv_lhs => rw [← List.take_append_drop 3 lines, h.start]
    rfl
  have hbom : Model.Wos.dropBOM lines.flatten = lines.flatten := by
    rw [hr]; rfl
  have hw : Model.Wos.isWOSFile lines.flatten = false := by
    unfold Model.Wos.isWOSFile
    rw [hbom, hl, h.start]
    decide +kernel
  have hm : Model.Medline.isMedlineFile lines.flatten = false := by
    unfold Model.Medline.isMedlineFile
    rw [hl]
    have : lines.take 2 = [separator, "\n".toList] := by rw [hr]; rfl
    rw [this]
    decide +kernel
  have hq : Model.Files.isProQuestFile lines.flatten = true := by
    unfold Model.Files.isProQuestFile
    rw [hl, hr, Model.Files.proQuestGo.eq_def]
    dsimp only
    rw [if_pos (show separator = Model.ProQuest.separator from rfl), if_pos (show "\n".toList = ['\n'] from rfl)]
    rfl
  obtain ⟨front, index, docs, tail, h1, h2, h3⟩ := h.layout
  have hp : Model.ProQuestFile.proQuestParser W.ws W.toInt lines = .done (papers.map mkRec) none :=
    (ProQuestFile.C73_reads lines (papers.map mkRec)).2 ⟨front, index, docs, papers, tail, h1, h2, h3, rfl⟩
  obtain ⟨S, s1, _, _, s4⟩ := ProQuestFile.C73_set lines _ _ hp
  have hS : S = papers.map mkRec := s4 (by
    rw [List.pairwise_map]
    have hd := h.different
    rw [List.Nodup, List.pairwise_map] at hd
    refine hd.imp_of_mem (fun {p q} hp hq hne hs => hne ?_)
    obtain ⟨x, hx⟩ := h.number p hp
    obtain ⟨y, hy⟩ := h.number q hq
    rcases hs with ⟨_, _, e⟩ | ⟨e, _⟩
    · rw [(rec_of h hp).2, (rec_of h hq).2, hx, hy] at e
      rw [hx, hy]
      exact congrArg some (List.append_cancel_left e)
    · rw [(rec_of h hp).1] at e; cases e)
  unfold records
  rw [hw, hm, hq, hl, s1, hS]
  rfl

/-! ## Values -/

theorem ofList_get? {β : Type} (d : Dict Str β) (k : String) : Dict.get? (d.map (fun f => (String.ofList f.1, f.2))) k = Dict.get? d k.toList := by
  induction d with
  | nil => rfl
  | cons f d ih =>
    obtain ⟨a, b⟩ := f
    rw [List.map_cons, Dict.get?, Dict.get?, ih]
    by_cases e : a = k.toList
    · subst e; simp
    · rw [if_neg e, if_neg (fun e' => e (by rw [← e', String.toList_ofList]))]

def strFields (p : Paper) : Dict String (List Str) := p.map (fun f => (String.ofList f.1, f.2))

/-- What reading a label gives first. -/
def direct (W : World) (p : Paper) (c : String) : Except AErr QVal :=
  match p.get? c.toList with
  | none => .error .keyError
  | some t => (cls W).proc c t

def lift : Except AErr QVal → Except AErr (Option QVal)
  | .ok v => .ok (some v)
  | .error .keyError => .ok none
  | .error e => .error e

theorem noClash (W : World) (d : Dict String (List Str)) : NoClash (cls W) d := by intro k a h; cases h

theorem store_fst (C : Cls String (List Str) QVal) (r : Model.RecordAccess.Rec String (List Str) QVal) (k : String) (v : Except AErr QVal) :
    (store C r k v).1 = v := by
  unfold store
  cases v with
  | error e => rfl
  | ok v => dsimp only; split <;> rfl

theorem item_label (W : World) (before : List (Op String QVal)) (p : Paper) (c : String) (hc : c ∉ madeNames) :
    (getitem (cls W) 3 (before.foldl (after (cls W) 3) (fresh (strFields p))) c).1 = direct W p c := by
  have hist := (C28_history_independent (C28_proQuest_class (cls W).proc W.truthy W.fin W.ident (.num 0) (.text "Author".toList)) (strFields p) (noClash W _) before c).2.1
  refine Eq.trans hist ?_
  change (getitem (cls W) 3 (fresh (strFields p)) c).1 = _
  have hg : (strFields p).get? c = p.get? c.toList := ofList_get? p c
  unfold getitem direct
  simp only [fresh, Dict.get?_nil, hg]
  cases hv : p.get? c.toList with
  | some t => exact store_fst _ _ _ _
  | none =>
    have hsp : (cls W).special c = .done (.error .keyError) := by
      show Model.RecordAccess.proQuestSpecial W.truthy W.fin W.ident (.num 0) (.text "Author".toList) c = _
      simp only [madeNames, List.mem_cons, List.not_mem_nil, or_false, not_or] at hc
      unfold Model.RecordAccess.proQuestSpecial
      rw [if_neg hc.1, if_neg hc.2.1, if_neg hc.2.2.1, if_neg hc.2.2.2.1, (Dict.get?_eq_none_iff _ _).2]
      simp only [proQuestReads, Dict.keys, List.map_cons, List.map_nil, List.mem_cons, List.not_mem_nil, or_false, not_or]
      tauto
    have ha : ∀ R : Model.RecordAccess.Rec String (List Str) QVal, altField (cls W) R c = none := fun _ => rfl
    simp only [hv, ha, hsp, runProg, store]

theorem held_eq (W : World) (before : List (Op String QVal)) (p : Paper) : held W before (mkRec p) = before.foldl (after (cls W) 3) (fresh (strFields p)) := by
  unfold held
  rw [fields_of]
  rfl

theorem value_eq (W : World) (before : Rec → List (Op String QVal)) {p : Paper} (hp : ∀ k ∈ madeNames, p.get? k.toList = none) (c k : String) (hc : c ∉ madeNames)
    (hk : NameOf c k) : value W before k (mkRec p) = lift (direct W p c) := by
  have key : (getitem (cls W) 3 (held W (before (mkRec p)) (mkRec p)) k).1 = direct W p c := by
    rw [held_eq]
    rcases hk with rfl | hk
    · exact item_label W _ p k hc
    · have hn : (strFields p).get? k = none := by
        unfold strFields
        rw [ofList_get?]
        have : ∀ q ∈ Spec.CommonNames.proQuest, q.1 ∈ madeNames := by decide +kernel
        exact hp _ (this _ hk)
      exact ((Verif.Props.CommonNames.C86_proQuest (cls W).proc W.truthy W.fin W.ident (.num 0) (.text "Author".toList) (strFields p) (before (mkRec p))).1 (k, c) hk hn).trans
        (item_label W _ p c hc)
  unfold value
  rw [key]
  rfl

/-- Under the name for full names every record gives the same word. -/
theorem value_full (W : World) (before : Rec → List (Op String QVal)) {p : Paper} (hp : ∀ k ∈ madeNames, p.get? k.toList = none) :
    value W before "authorsFull" (mkRec p) = .ok (some (.text "Author".toList)) := by
  have hn : (strFields p).get? "authorsFull" = none := by
    unfold strFields
    rw [ofList_get?]
    exact hp _ (by decide)
  have key := (Verif.Props.CommonNames.C86_proQuest (cls W).proc W.truthy W.fin W.ident (.num 0) (.text "Author".toList) (strFields p) (before (mkRec p))).2.2.2.1 hn
  unfold value
  rw [held_eq]
  change (match (Verif.Props.CommonNames.item (cls W) (strFields p) (before (mkRec p)) "authorsFull") with
    | .ok v => Except.ok (some v)
    | .error .keyError => .ok none
    | .error e => .error e) = _
  rw [show Verif.Props.CommonNames.item (cls W) (strFields p) (before (mkRec p)) "authorsFull" = .ok (.text "Author".toList) from key]

theorem value_text (W : World) (before : Rec → List (Op String QVal)) {p : Paper} (hp : ∀ k ∈ madeNames, p.get? k.toList = none)
    (hfill : ∀ k v, p.get? k = some v → v ≠ []) (c k : String) (hc : c ∈ oneLine) (hk : NameOf c k) :
    value W before k (mkRec p) = .ok ((firstOf p c).map .text) := by
  have hcol : ∀ c ∈ oneLine, c ∉ madeNames ∧ c.toList ∈ Verif.Props.OtherFields.oneLine := by decide +kernel
  obtain ⟨h1, h2⟩ := hcol c hc
  rw [value_eq W before hp c k h1 hk]
  unfold direct firstOf
  cases hg : p.get? c.toList with
  | none => rfl
  | some l =>
    cases l with
    | nil => exact absurd rfl (hfill _ _ hg)
    | cons v more =>
      simp only [cls, OtherFields.C71_proquest_single _ h2 v more]
      rfl

theorem value_list (W : World) (before : Rec → List (Op String QVal)) {p : Paper} (hp : ∀ k ∈ madeNames, p.get? k.toList = none) (c sep k : String)
    (hc : (c, sep) ∈ listLabels) (hk : NameOf c k) (l : List Str) (hl : Lists sep p c l) :
    value W before k (mkRec p) = .ok (if l = [] then none else some (.texts l)) := by
  have hcol : ∀ q ∈ listLabels, q.1 ∉ madeNames := by decide +kernel
  rw [value_eq W before hp c k (hcol _ hc) hk]
  rcases hl with ⟨h1, rfl⟩ | ⟨h1, ⟨more, h2⟩, h3⟩
  · unfold direct; rw [h1]; rfl
  · rw [if_neg h1]
    have hv : proQuestValue c.toList (sep.toList.intercalate l :: more) = .ok (.texts l) := by
      obtain ⟨c1, c2⟩ := OtherFields.C71_proquest_lists l h1 more
      simp only [listLabels, List.mem_cons, Prod.mk.injEq, List.not_mem_nil, or_false] at hc
      rcases hc with ⟨rfl, rfl⟩ | ⟨rfl, rfl⟩
      · exact c1 h3
      · exact c2 h3
    unfold direct
    rw [h2]
    simp only [cls, hv]
    rfl

theorem value_values (W : World) (before : Rec → List (Op String QVal)) {p : Paper} (hp : ∀ k ∈ madeNames, p.get? k.toList = none)
    (hfill : ∀ k v, p.get? k = some v → v ≠ []) (c k : String) (hk : NameOf c k) (l : List Str) (hl : Values p c l) :
    ∃ o, value W before k (mkRec p) = .ok o ∧ vals (o.map fieldVal) = l.map .text := by
  rcases hl with ⟨sep, hc, hl⟩ | ⟨hc, rfl⟩
  · refine ⟨_, value_list W before hp c sep k hc hk l hl, ?_⟩
    by_cases e : l = []
    · rw [if_pos e, e]; rfl
    · rw [if_neg e]; rfl
  · refine ⟨_, value_text W before hp hfill c k hc hk, ?_⟩
    cases firstOf p c <;> rfl

end Verif.Lemmas.ProQuestPipeline
