import Verif.Spec.CliSession
import Verif.Props.Cli
import Verif.Props.CliRun

/-! # Lemmas on sessions of the command line tool (C93) -/
set_option autoImplicit false
set_option linter.unusedSimpArgs false
namespace Verif.Lemmas.CliSession
open Verif.Py Verif.Py.Graph Verif.Model.GraphHelpers Verif.Model.Cli Verif.Model.CliRun Verif.Model.CliSession
open Verif.Spec.CliRun Verif.Spec.Cli Verif.Spec.CliSession Verif.Props Verif.Props.Cli Verif.Props.CliRun

variable {ρ ν κ π : Type} [DecidableEq ρ] [DecidableEq ν] [DecidableEq π]

/-! ## The filters -/

theorem picked_junk {keys : List Str} {key l : Str} {a : List Str} (h1 : l ∉ keys) (h2 : l ≠ ['q']) (h3 : l ≠ ['i']) (h : Picked keys key a) :
    Picked keys key (l :: a) := by
  obtain ⟨j, rfl, hk, hj⟩ := h
  refine ⟨l :: j, rfl, hk, ?_⟩
  intro y hy
  rcases List.mem_cons.1 hy with rfl | hy
  · exact ⟨h1, h2, h3⟩
  · exact hj y hy

theorem picked_one {keys : List Str} {key : Str} (h : key ∈ keys) : Picked keys key [key] := ⟨[], rfl, h, by simp⟩

theorem filters_junk {num : Str → Option Int} {cs : List Cmd} {l : Str} {t : List Str} (h1 : l ∉ filterKeys) (h2 : l ≠ ['q']) (h3 : l ≠ ['i'])
    (h : FiltersTyped num cs t) : FiltersTyped num cs (l :: t) := by
  cases h with
  | stop _ h => exact .stop _ (picked_junk h1 h2 h3 h)
  | isolates cs a b h hb => exact .isolates cs (l :: a) b (picked_junk h1 h2 h3 h) hb
  | selfLoops cs a b h hb => exact .selfLoops cs (l :: a) b (picked_junk h1 h2 h3 h) hb
  | number key c x cs a n b hk h hn hb => exact .number key c x cs (l :: a) n b hk (picked_junk h1 h2 h3 h) hn hb

/-- The lines from a question on. -/
def FRest (num : Str → Option Int) : Mode → List Cmd → List Str → Prop
  | .menu, cs, t => FiltersTyped num cs t
  | .ask a, cs, t => ∃ x cs' n b, cs = cmdOf a x :: cs' ∧ t = n ++ b ∧ Number num x n ∧ FiltersTyped num cs' b

def keyOf : Ask → Str
  | .minWeight => ['3']
  | .maxWeight => ['4']
  | .minDegree => ['5']
  | .maxDegree => ['6']

theorem frest_ask {num : Str → Option Int} {a : Ask} {cs : List Cmd} {t : List Str} (h : FRest num (.ask a) cs t) : FiltersTyped num cs (keyOf a :: t) := by
  obtain ⟨x, cs', n, b, rfl, rfl, hn, hb⟩ := h
  cases a
  · exact .number ['3'] Cmd.edgesBelow x cs' [['3']] n b (by simp) (picked_one (by decide)) hn hb
  · exact .number ['4'] Cmd.edgesAbove x cs' [['4']] n b (by simp) (picked_one (by decide)) hn hb
  · exact .number ['5'] Cmd.nodesBelow x cs' [['5']] n b (by simp) (picked_one (by decide)) hn hb
  · exact .number ['6'] Cmd.nodesAbove x cs' [['6']] n b (by simp) (picked_one (by decide)) hn hb

theorem number_junk {num : Str → Option Int} {x : Int} {l : Str} {n : List Str} (hl : num l = none) (h : Number num x n) : Number num x (l :: n) := by
  obtain ⟨j, y, rfl, hy, hj⟩ := h
  refine ⟨l :: j, y, rfl, hy, ?_⟩
  intro z hz
  rcases List.mem_cons.1 hz with rfl | hz
  · exact hl
  · exact hj z hz

theorem filters_sound (num : Str → Option Int) (lines : List Str) : ∀ (m : Mode) (g h : G ν) (rest : List Str), g.WF →
    getThresholds num m g lines = (.graph, h, rest) → ∃ typed cs, lines = typed ++ rest ∧ FRest num m cs typed ∧ Chain Done cs g h := by
  induction lines with
  | nil => intro m g h rest _ e; cases m <;> cases e
  | cons l ls ih =>
    intro m g h rest hg e
    cases m with
    | ask a =>
      unfold getThresholds at e
      cases hn : num l with
      | none =>
        rw [hn] at e
        obtain ⟨t, cs, rfl, ⟨x, cs', n, b, rfl, rfl, h1, h2⟩, hc⟩ := ih (.ask a) g h rest hg e
        exact ⟨l :: (n ++ b), _, rfl, ⟨x, cs', l :: n, b, rfl, rfl, number_junk hn h1, h2⟩, hc⟩
      | some x =>
        rw [hn] at e
        dsimp only at e
        have hx := answer_done a x g hg
        rcases hans : answer a x g with ⟨g', e'⟩
        rw [hans] at e hx
        cases e' with
        | some e' => cases e
        | none =>
          obtain ⟨h1, h2⟩ := hx rfl
          obtain ⟨t, cs, rfl, hf, hc⟩ := ih .menu g' h rest h1 e
          exact ⟨l :: t, cmdOf a x :: cs, rfl, ⟨x, cs, [l], t, rfl, rfl, ⟨[], l, rfl, hn, by simp⟩, hf⟩, Chain.cons _ _ _ _ _ h2 hc⟩
    | menu =>
      unfold getThresholds at e
      by_cases h0 : l = ['0']
      · subst h0
        rw [if_pos rfl] at e
        cases e
        exact ⟨[['0']], [], rfl, .stop _ (picked_one (by decide)), Chain.nil g⟩
      rw [if_neg h0] at e
      by_cases h1 : l = ['1']
      · subst h1
        rw [if_pos rfl] at e
        have hx := dropNodes_keep 1 g hg
        rcases hans : dropNodesByDegree (some 1) none true "weight" true g with ⟨g', e'⟩
        rw [hans] at e hx
        cases e' with
        | some e' => cases e
        | none =>
          obtain ⟨w, h2⟩ := hx rfl
          obtain ⟨t, cs, rfl, hf, hc⟩ := ih .menu g' h rest w e
          exact ⟨['1'] :: t, .isolates :: cs, rfl, .isolates cs [['1']] t (picked_one (by decide)) hf, Chain.cons _ _ _ _ _ h2 hc⟩
      rw [if_neg h1] at e
      by_cases h2 : l = ['2']
      · subst h2
        rw [if_pos rfl] at e
        have hx := loops_meant g hg
        have hw := WF_dropEdges none none "weight" false true g hg
        rcases hans : dropEdges none none "weight" false true g with ⟨g', e'⟩
        rw [hans] at e hx hw
        cases e' with
        | some e' => cases e
        | none =>
          obtain ⟨t, cs, rfl, hf, hc⟩ := ih .menu g' h rest hw e
          exact ⟨['2'] :: t, .selfLoops :: cs, rfl, .selfLoops cs [['2']] t (picked_one (by decide)) hf, Chain.cons _ _ _ _ _ hx.2 hc⟩
      rw [if_neg h2] at e
      by_cases h3 : l = ['3']
      · subst h3
        rw [if_pos rfl] at e
        obtain ⟨t, cs, rfl, hf, hc⟩ := ih (.ask .minWeight) g h rest hg e
        exact ⟨['3'] :: t, cs, rfl, frest_ask hf, hc⟩
      rw [if_neg h3] at e
      by_cases h4 : l = ['4']
      · subst h4
        rw [if_pos rfl] at e
        obtain ⟨t, cs, rfl, hf, hc⟩ := ih (.ask .maxWeight) g h rest hg e
        exact ⟨['4'] :: t, cs, rfl, frest_ask hf, hc⟩
      rw [if_neg h4] at e
      by_cases h5 : l = ['5']
      · subst h5
        rw [if_pos rfl] at e
        obtain ⟨t, cs, rfl, hf, hc⟩ := ih (.ask .minDegree) g h rest hg e
        exact ⟨['5'] :: t, cs, rfl, frest_ask hf, hc⟩
      rw [if_neg h5] at e
      by_cases h6 : l = ['6']
      · subst h6
        rw [if_pos rfl] at e
        obtain ⟨t, cs, rfl, hf, hc⟩ := ih (.ask .maxDegree) g h rest hg e
        exact ⟨['6'] :: t, cs, rfl, frest_ask hf, hc⟩
      rw [if_neg h6] at e
      by_cases h7 : l = ['q']
      · rw [if_pos h7] at e; cases e
      rw [if_neg h7] at e
      by_cases h8 : l = ['i']
      · rw [if_pos h8] at e; cases e
      rw [if_neg h8] at e
      obtain ⟨t, cs, rfl, hf, hc⟩ := ih .menu g h rest hg e
      refine ⟨l :: t, cs, rfl, filters_junk ?_ h7 h8 hf, hc⟩
      have : filterKeys = [['0'], ['1'], ['2'], ['3'], ['4'], ['5'], ['6']] := rfl
      rw [this]
      simp [h0, h1, h2, h3, h4, h5, h6]

theorem thresholds_picked (num : Str → Option Int) (key : Str) (a rest : List Str) (g : G ν) (h : Picked filterKeys key a) :
    getThresholds num .menu g (a ++ rest) = getThresholds num .menu g (key :: rest) := by
  obtain ⟨j, rfl, hk, hj⟩ := h
  induction j with
  | nil => rfl
  | cons l j ih =>
    obtain ⟨h1, h2, h3⟩ := hj l List.mem_cons_self
    have h2 : l ≠ ['q'] := h2
    have h3 : l ≠ ['i'] := h3
    have e : filterKeys = [['0'], ['1'], ['2'], ['3'], ['4'], ['5'], ['6']] := rfl
    rw [e] at h1
    simp only [List.mem_cons, List.not_mem_nil, or_false, not_or] at h1
    obtain ⟨a0, a1, a2, a3, a4, a5, a6⟩ := h1
    rw [← ih (fun y hy => hj y (List.mem_cons_of_mem _ hy))]
    show getThresholds num .menu g (l :: (j ++ [key] ++ rest)) = _
    conv_lhs => unfold getThresholds
    rw [if_neg a0, if_neg a1, if_neg a2, if_neg a3, if_neg a4, if_neg a5, if_neg a6, if_neg h2, if_neg h3]

theorem thresholds_number (num : Str → Option Int) (a : Ask) (x : Int) (n rest : List Str) (g : G ν) (h : Number num x n) :
    getThresholds num (.ask a) g (n ++ rest) = (match answer a x g with
      | (g', some e) => (.raised e, g', rest)
      | (g', none) => getThresholds num .menu g' rest) := by
  obtain ⟨j, l, rfl, hl, hj⟩ := h
  induction j with
  | nil =>
    show getThresholds num (.ask a) g (l :: rest) = _
    conv_lhs => unfold getThresholds
    rw [hl]
    rfl
  | cons y j ih =>
    rw [← ih (fun z hz => hj z (List.mem_cons_of_mem _ hz))]
    show getThresholds num (.ask a) g (y :: (j ++ [l] ++ rest)) = _
    conv_lhs => unfold getThresholds
    rw [hj y List.mem_cons_self]

theorem filters_total (num : Str → Option Int) (cs : List Cmd) (typed rest : List Str) (h : FiltersTyped num cs typed) : ∀ (g : G ν),
    (∀ e, (getThresholds num .menu g (typed ++ rest)).1 ≠ .raised e) → ∃ k, getThresholds num .menu g (typed ++ rest) = (.graph, k, rest) := by
  induction h with
  | stop a h =>
    intro g _
    rw [thresholds_picked num _ a rest g h]
    exact ⟨g, rfl⟩
  | isolates cs a b h _ ih =>
    intro g hr
    rw [List.append_assoc, thresholds_picked num _ a (b ++ rest) g h] at hr ⊢
    have e : getThresholds num .menu g ("1".toList :: (b ++ rest)) = (match dropNodesByDegree (some 1) none true "weight" true g with
      | (g', some e) => (.raised e, g', b ++ rest)
      | (g', none) => getThresholds num .menu g' (b ++ rest)) := rfl
    rw [e] at hr ⊢
    revert hr
    rcases dropNodesByDegree (some 1) none true "weight" true g with ⟨g', _ | e'⟩ <;> intro hr
    · exact ih g' hr
    · exact absurd rfl (hr e')
  | selfLoops cs a b h _ ih =>
    intro g hr
    rw [List.append_assoc, thresholds_picked num _ a (b ++ rest) g h] at hr ⊢
    have e : getThresholds num .menu g ("2".toList :: (b ++ rest)) = (match dropEdges none none "weight" false true g with
      | (g', some e) => (.raised e, g', b ++ rest)
      | (g', none) => getThresholds num .menu g' (b ++ rest)) := rfl
    rw [e] at hr ⊢
    revert hr
    rcases dropEdges none none "weight" false true g with ⟨g', _ | e'⟩ <;> intro hr
    · exact ih g' hr
    · exact absurd rfl (hr e')
  | number key c x cs a n b hk h hn _ ih =>
    intro g hr
    rw [List.append_assoc, List.append_assoc, thresholds_picked num _ a (n ++ (b ++ rest)) g h] at hr ⊢
    have H : ∃ q, getThresholds num .menu g (key :: (n ++ (b ++ rest))) = getThresholds num (.ask q) g (n ++ (b ++ rest)) := by
      simp only [List.mem_cons, Prod.mk.injEq, List.not_mem_nil, or_false] at hk
      rcases hk with ⟨rfl, -⟩ | ⟨rfl, -⟩ | ⟨rfl, -⟩ | ⟨rfl, -⟩
      · exact ⟨.minWeight, rfl⟩
      · exact ⟨.maxWeight, rfl⟩
      · exact ⟨.minDegree, rfl⟩
      · exact ⟨.maxDegree, rfl⟩
    obtain ⟨q, H⟩ := H
    rw [H, thresholds_number num q x n (b ++ rest) g hn] at hr ⊢
    revert hr
    rcases answer q x g with ⟨g', _ | e'⟩ <;> intro hr
    · exact ih g' hr
    · exact absurd rfl (hr e')

/-! ## The files read -/

theorem filesTyped (w : World ρ ν κ π) (hfull : ∀ f, w.full (w.full f) = w.full f) (files lines rest : List Str) (rs : List ρ)
    (h : getFiles w.full w.there w.read files lines = .ok (rs, rest)) : ∃ typed, lines = typed ++ rest ∧ FilesTyped w files rs typed := by
  by_cases hf : files = []
  · subst hf
    obtain ⟨j, ps, rfl, h1, h2, h3, h4, h5⟩ := C87_files_asked w.full hfull w.there w.read lines rest rs h
    exact ⟨j ++ [Str.join [' '] ps], by simp, .inr ⟨rfl, j, ps, rfl, h1, fun p hp => (h2 p hp).1, ⟨fun p hp => (h2 p hp).2, h4, h5⟩, h3⟩⟩
  · obtain ⟨rfl, h1, h2, h3⟩ := C87_files w.full w.there w.read files lines rest hf rs h
    exact ⟨[], rfl, .inl ⟨hf, rfl, h2, h1, h3⟩⟩

/-! ## Writing -/

theorem wrote_of_write (w : World ρ ν κ π) (f : Str) (x : Write κ) (fs : Files κ π) (h : (write w f x fs).1 = false) :
    Wrote x (w.path f) fs (write w f x fs).2 := by
  refine ⟨h, ?_, ?_, ?_⟩
  · intro c hc
    unfold write
    rw [hc]; simp
  · intro hc
    unfold write
    rw [hc]
  · intro q hq
    unfold write
    cases x.left with
    | none => rfl
    | some c => simp [hq]

theorem write_other (w : World ρ ν κ π) (f : Str) (x : Write κ) (fs : Files κ π) (q : π) (h : (write w f x fs).2 q ≠ fs q) : q = w.path f := by
  by_contra hq
  apply h
  unfold write
  cases x.left with
  | none => rfl
  | some c => simp [hq]

theorem after_done (x : Bool × Files κ π) (h : (after x).fin = .done) : x.1 = false := by
  unfold after at h
  cases hx : x.1 with
  | false => rfl
  | true => rw [hx] at h; cases h

theorem jobDone (w : World ρ ν κ π) (rs : List ρ) (fs : Files κ π) (lines : List Str) (job : Job) (h : (doJob w rs fs lines job).fin = .done) :
    JobDone w rs fs (doJob w rs fs lines job).files job := by
  cases job with
  | nothing => rfl
  | writeFile f => exact wrote_of_write w f _ fs (after_done _ h)
  | writeCSV f => exact wrote_of_write w f _ fs (after_done _ h)
  | citations b f => exact wrote_of_write w f _ fs (after_done _ h)
  | review db =>
    show (doJob w rs fs lines (.review db)).files = fs
    unfold doJob
    dsimp only
    rcases review w.web w.upper (decide (db = w.manual)) (w.journals rs) lines (w.bases db) with ⟨e, _, _⟩
    cases e <;> rfl

theorem doOutput_both (w : World ρ ν κ π) (g : G ν) (fs : Files κ π) (f : Str) (b : Bool) : doOutput w g fs (.both f b) =
    match write w (w.edgeName f) (w.edges (w.edgeName f) g) fs with
    | (true, fs) => ⟨.failed, fs, none⟩
    | (false, fs) => after (write w (w.nodeName f) (w.nodes (w.nodeName f) g) fs) := rfl

theorem outputDone (w : World ρ ν κ π) (g : G ν) (fs : Files κ π) (o : Output) (h : (doOutput w g fs o).fin = .done) :
    OutputDone w g fs (doOutput w g fs o).files o := by
  cases o with
  | edges f => exact wrote_of_write w f _ fs (after_done _ h)
  | nodes f => exact wrote_of_write w f _ fs (after_done _ h)
  | graphml f => exact wrote_of_write w f _ fs (after_done _ h)
  | both f b =>
    rw [doOutput_both] at h ⊢
    show ∃ mid, _ ∧ _
    rcases he : write w (w.edgeName f) (w.edges (w.edgeName f) g) fs with ⟨r, mid⟩
    rw [he] at h
    have hw := wrote_of_write w (w.edgeName f) (w.edges (w.edgeName f) g) fs
    rw [he] at hw
    cases r with
    | true => cases h
    | false => exact ⟨mid, hw rfl, wrote_of_write w (w.nodeName f) _ mid (after_done _ h)⟩

theorem bases_doOutput (w : World ρ ν κ π) (g : G ν) (fs : Files κ π) (o : Output) : (doOutput w g fs o).bases = none := by
  cases o with
  | both f b =>
    rw [doOutput_both]
    split <;> rfl
  | _ => rfl

/-! ## The part with the network -/

/-- Where the part with the network leads to. -/
theorem network_cases (w : World ρ ν κ π) (hmake : ∀ net rs g, w.make net rs = some g → g.WF) (rs : List ρ) (fs : Files κ π) (lines : List Str) :
    (∃ e, e ≠ .done ∧ network w rs fs lines = ⟨e, fs, none⟩) ∨
    ∃ net g cmds h o a b c rest, lines = a ++ b ++ c ++ rest ∧ NetTyped w.upper (w.tags rs) net a ∧ w.make net rs = some g ∧
      FiltersTyped w.num cmds b ∧ Chain Done cmds g h ∧
      OutTyped (NameTyped w.upper (taken w fs) w.name) (GraphTyped w.upper (taken w fs) (eitherThere w fs) w.name) w.contour o c ∧
      network w rs fs lines = doOutput w h fs o := by
  have hend : ∀ s, ended w s ≠ .done := by
    intro s
    cases s with
    | eof => unfold ended; cases w.last <;> simp
    | quit => simp [ended]
    | typeError => simp [ended]
  unfold network
  cases hn : getNetwork w.upper (w.tags rs) lines with
  | error s => exact .inl ⟨_, hend s, rfl⟩
  | ok p =>
    obtain ⟨net, l1⟩ := p
    obtain ⟨a, rfl, ha⟩ := (C87_network _ _ _ _ _).1 hn
    dsimp only
    cases hm : w.make net rs with
    | none => exact .inl ⟨_, by simp, rfl⟩
    | some g =>
      dsimp only
      rcases ht : getThresholds w.num .menu g l1 with ⟨out, h, l2⟩
      cases out with
      | quit => exact .inl ⟨_, hend _, rfl⟩
      | typeError => exact .inl ⟨_, hend _, rfl⟩
      | eof => exact .inl ⟨_, hend _, rfl⟩
      | raised e => exact .inl ⟨.failed, by simp, rfl⟩
      | graph =>
        obtain ⟨b, cmds, rfl, hb, hc⟩ := filters_sound w.num l1 .menu g h l2 (hmake _ _ _ hm) ht
        dsimp only
        cases ho : outputNetwork w.upper (exist w fs) (clash w fs) w.contour w.name (l2.length + 1) l2 with
        | error s => exact .inl ⟨_, hend s, rfl⟩
        | ok p =>
          obtain ⟨o, l3⟩ := p
          obtain ⟨c, rfl, hc'⟩ := (C87_output _ _ _ _ _ _ _ _ (Nat.lt_succ_self _) _).1 ho
          exact .inr ⟨net, g, cmds, h, o, a, b, c, l3, by simp, ha, hm, hb, hc, hc', rfl⟩

/-- Where a session leads to. -/
theorem session_cases (w : World ρ ν κ π) (hfull : ∀ f, w.full (w.full f) = w.full f) (files : List Str) (fs : Files κ π) (lines : List Str) :
    (∃ e, e ≠ .done ∧ mkCLI w files fs lines = ⟨e, fs, none⟩) ∨
    ∃ rs job net a b rest, lines = a ++ b ++ rest ∧ FilesTyped w files rs a ∧
      JobTyped w.upper (NameTyped w.upper (taken w fs) w.name) w.manual job net b ∧
      mkCLI w files fs lines = if (doJob w rs fs rest job).fin = .done ∧ net = true then network w rs (doJob w rs fs rest job).files rest
        else doJob w rs fs rest job := by
  have hend : ∀ s, ended w s ≠ .done := by
    intro s
    cases s with
    | eof => unfold ended; cases w.last <;> simp
    | quit => simp [ended]
    | typeError => simp [ended]
  unfold mkCLI
  cases hf : getFiles w.full w.there w.read files lines with
  | error s =>
    cases s with
    | eof => exact .inl ⟨_, hend _, rfl⟩
    | missing => exact .inl ⟨.failed, by simp, rfl⟩
    | reader => exact .inl ⟨.failed, by simp, rfl⟩
  | ok p =>
    obtain ⟨rs, l1⟩ := p
    obtain ⟨a, rfl, ha⟩ := filesTyped w hfull files lines l1 rs hf
    dsimp only
    cases hj : getWhatToDo w.upper (exist w fs) w.name w.manual l1 with
    | error s => exact .inl ⟨_, hend s, rfl⟩
    | ok p =>
      obtain ⟨⟨job, net⟩, l2⟩ := p
      obtain ⟨b, rfl, hb⟩ := (C87_job _ _ _ _ _ _ _ _).1 hj
      refine .inr ⟨rs, job, net, a, b, l2, by simp, ha, hb, ?_⟩
      dsimp only
      rcases doJob w rs fs l2 job with ⟨e, fs', bs⟩
      cases e <;> cases net <;> simp

/-! ## Names -/

theorem nameTyped_mem {upper : Str → Str} {there : Str → Bool} {name suffix f : Str} {typed : List Str} (h : NameTyped upper there name suffix f typed) :
    ∃ l, (l ∈ typed ∨ l = name ∧ name ≠ []) ∧ l ++ suffix = f := by
  unfold NameTyped at h
  split at h
  · induction h with
    | empty l typed _ _ ih =>
      obtain ⟨m, hm | ⟨rfl, hm⟩, e⟩ := ih
      · exact ⟨m, .inl (by simp [hm]), e⟩
      · contradiction
    | new l e => exact ⟨l, .inl (by simp), e⟩
    | agreed l a e => exact ⟨l, .inl (by simp), e⟩
    | refused l a typed _ _ _ _ ih =>
      obtain ⟨m, hm | ⟨rfl, hm⟩, e⟩ := ih
      · exact ⟨m, .inl (by simp [hm]), e⟩
      · contradiction
  · rename_i hn
    exact ⟨name, .inr ⟨rfl, hn⟩, h.2.symm⟩

theorem graphAsked_mem {upper : Str → Str} {there clash : Str → Bool} {ck : Bool} {f : Str} {o : Bool} {typed : List Str}
    (h : GraphAsked upper there clash ck f o typed) : f ∈ typed := by
  induction h with
  | empty _ _ _ _ _ ih => exact List.mem_cons_of_mem _ ih
  | declined _ _ _ _ _ _ _ _ _ _ _ ih => simp [ih]
  | new _ _ a h =>
    obtain ⟨-, b, rfl, -⟩ := h
    simp
  | agreed _ _ a b h =>
    obtain ⟨-, c, rfl, -⟩ := h
    simp
  | refused _ _ _ _ _ _ _ _ _ _ _ ih => simp [ih]

theorem graphTyped_mem {upper : Str → Str} {there clash : Str → Bool} {name f : Str} {o : Bool} {typed : List Str}
    (h : GraphTyped upper there clash name f o typed) : f ∈ typed ∨ f = name ∧ name ≠ [] := by
  unfold GraphTyped at h
  split at h
  · exact .inl (graphAsked_mem h)
  · rename_i hn
    exact .inr ⟨h.2.1, hn⟩

/-- A name was typed and after it the last answer is a yes and there is no no. -/
def Agreed (upper : Str → Str) (l : Str) (typed : List Str) : Prop :=
  ∃ pre mid ans, typed = pre ++ l :: (mid ++ [ans]) ∧ Means upper true ans ∧ ∀ m ∈ mid, ¬ Means upper false m

theorem agreed_pre {upper : Str → Str} {l : Str} {typed : List Str} (pre : List Str) (h : Agreed upper l typed) : Agreed upper l (pre ++ typed) := by
  obtain ⟨p, m, a, rfl, h1, h2⟩ := h
  exact ⟨pre ++ p, m, a, by simp, h1, h2⟩

theorem nameAsked_agreed {upper : Str → Str} {there : Str → Bool} {suffix f : Str} {typed : List Str} (h : NameAsked upper there suffix f typed)
    (ht : there f = true) : ∃ l, l ++ suffix = f ∧ Agreed upper l typed := by
  induction h with
  | empty l typed _ _ ih =>
    obtain ⟨m, e, h⟩ := ih
    exact ⟨m, e, agreed_pre [l] h⟩
  | new l e _ hf => rw [hf] at ht; cases ht
  | agreed l a e _ _ ha =>
    obtain ⟨j, x, rfl, hx, hj⟩ := ha
    exact ⟨l, e, [], j, x, rfl, hx, fun m hm => (hj m hm).2⟩
  | refused l a typed _ _ _ _ ih =>
    obtain ⟨m, e, h⟩ := ih
    exact ⟨m, e, agreed_pre (l :: a) h⟩

theorem not_both {upper : Str → Str} {l : Str} (h1 : Means upper true l) (h2 : Means upper false l) : False := by
  have h1 : upper l = ['Y'] ∨ upper l = [] := h1
  have h2 : upper l = ['N'] := h2
  rcases h1 with h | h <;> rw [h] at h2 <;> cases h2

theorem graphAsked_agreed {upper : Str → Str} {there clash : Str → Bool} {ck : Bool} {f : Str} {o : Bool} {typed : List Str}
    (h : GraphAsked upper there clash ck f o typed) (ht : clash f = true) : Agreed upper f typed := by
  induction h with
  | empty _ _ _ _ _ ih => exact agreed_pre [[]] (ih ht)
  | declined _ _ l _ a _ _ _ _ _ _ ih => exact agreed_pre (l :: a) (ih ht)
  | new _ _ a _ hf => rw [hf] at ht; cases ht
  | agreed _ f a b h _ hb =>
    obtain ⟨-, c, rfl, hc⟩ := h
    obtain ⟨j, x, rfl, hx, hj⟩ := hb
    refine ⟨[], c ++ j, x, by simp, hx, ?_⟩
    intro m hm
    rcases List.mem_append.1 hm with hm | hm
    · rcases hc with ⟨-, rfl⟩ | ⟨-, -, k, y, rfl, hy, hk⟩
      · cases hm
      · rcases List.mem_append.1 hm with hm | hm
        · exact (hk m hm).2
        · simp only [List.mem_singleton] at hm
          subst hm
          exact fun h => not_both hy h
    · exact (hj m hm).2
  | refused _ _ _ _ a b _ _ _ _ _ ih => exact agreed_pre (a ++ b) (ih ht)

/-- The name of the file a job writes. -/
def jobFile : Job → Option Str
  | .writeFile f => some f
  | .writeCSV f => some f
  | .citations _ f => some f
  | _ => none

theorem jobTyped_name {upper : Str → Str} {Named : Str → Str → List Str → Prop} {manual : Str} {job : Job} {net : Bool} {typed : List Str} {f : Str}
    (h : JobTyped upper Named manual job net typed) (hf : jobFile job = some f) :
    ∃ pre b suffix, typed = pre ++ b ∧ (suffix = ".txt".toList ∨ suffix = ".csv".toList) ∧ Named suffix f b := by
  cases job with
  | nothing => cases hf
  | review db => cases hf
  | writeFile g =>
    cases hf
    obtain ⟨a, b, rfl, -, h⟩ := h
    exact ⟨a, b, _, rfl, .inl rfl, h⟩
  | writeCSV g =>
    cases hf
    obtain ⟨a, b, rfl, -, h⟩ := h
    exact ⟨a, b, _, rfl, .inr rfl, h⟩
  | citations j g =>
    cases hf
    obtain ⟨-, a, b, c, rfl, -, -, h⟩ := h
    exact ⟨a ++ b, c, _, rfl, .inr rfl, h⟩

theorem doJob_other (w : World ρ ν κ π) (rs : List ρ) (fs : Files κ π) (lines : List Str) (job : Job) (q : π)
    (h : (doJob w rs fs lines job).files q ≠ fs q) : ∃ f, jobFile job = some f ∧ q = w.path f := by
  cases job with
  | nothing => exact absurd rfl h
  | writeFile f => exact ⟨f, rfl, write_other w f _ fs q h⟩
  | writeCSV f => exact ⟨f, rfl, write_other w f _ fs q h⟩
  | citations b f => exact ⟨f, rfl, write_other w f _ fs q h⟩
  | review db =>
    exfalso
    apply h
    unfold doJob
    dsimp only
    rcases review w.web w.upper (decide (db = w.manual)) (w.journals rs) lines (w.bases db) with ⟨e, _, _⟩
    cases e <;> rfl

theorem doOutput_other (w : World ρ ν κ π) (g : G ν) (fs : Files κ π) (o : Output) (q : π) (h : (doOutput w g fs o).files q ≠ fs q) :
    match o with
    | .both f _ => q = w.path (w.edgeName f) ∨ q = w.path (w.nodeName f)
    | .edges f => q = w.path f
    | .nodes f => q = w.path f
    | .graphml f => q = w.path f := by
  cases o with
  | edges f => exact write_other w f _ fs q h
  | nodes f => exact write_other w f _ fs q h
  | graphml f => exact write_other w f _ fs q h
  | both f b =>
    rw [doOutput_both] at h
    have hw := write_other w (w.edgeName f) (w.edges (w.edgeName f) g) fs q
    revert h hw
    rcases write w (w.edgeName f) (w.edges (w.edgeName f) g) fs with ⟨r, mid⟩
    intro h hw
    cases r with
    | true => exact .inl (hw h)
    | false =>
      by_cases hm : mid q = fs q
      · rw [← hm] at h
        exact .inr (write_other w (w.nodeName f) _ mid q h)
      · exact .inl (hw hm)

end Verif.Lemmas.CliSession
