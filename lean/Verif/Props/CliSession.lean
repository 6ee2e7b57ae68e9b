import Verif.Lemmas.CliSession

/-! # C93: sessions of the command line tool -/
set_option autoImplicit false
set_option linter.unusedSimpArgs false
set_option linter.unusedSectionVars false
namespace Verif.Props.CliSession
open Verif.Py Verif.Py.Graph Verif.Model.GraphHelpers Verif.Model.Cli Verif.Model.CliRun Verif.Model.CliSession
open Verif.Spec.CliRun Verif.Spec.Cli Verif.Spec.CliSession Verif.Lemmas.CliSession Verif.Props Verif.Props.Cli Verif.Props.CliRun

variable {ρ ν κ π : Type} [DecidableEq ρ] [DecidableEq ν] [DecidableEq π]

/-- **C93.** A session that ends normally is one as it should be: the lines typed are those for the files, the job, the network, the filters and the output,
and the files and databases are changed by what was chosen, and by nothing else. Names are checked against the files as they are at that moment, also
against the file the job has written. -/
theorem C93_session (w : World ρ ν κ π) (hfull : ∀ f, w.full (w.full f) = w.full f) (hmake : ∀ net rs g, w.make net rs = some g → g.WF)
    (files : List Str) (fs : Files κ π) (lines : List Str) (h : (mkCLI w files fs lines).fin = .done) :
    ∃ typed rest, lines = typed ++ rest ∧ Session w files fs (mkCLI w files fs lines).files (mkCLI w files fs lines).bases typed := by
  rcases session_cases w hfull files fs lines with ⟨e, he, hs⟩ | ⟨rs, job, net, a, b, rest, rfl, ha, hb, hs⟩
  · rw [hs] at h; exact absurd h he
  · rw [hs] at h ⊢
    clear hs
    have hbas : (∀ db, job ≠ .review db) → (doJob w rs fs rest job).bases = none := by
      intro hn
      cases job with
      | review db => exact absurd rfl (hn db)
      | _ => rfl
    by_cases hc : (doJob w rs fs rest job).fin = .done ∧ net = true
    · obtain ⟨hd, rfl⟩ := hc
      rw [if_pos ⟨hd, rfl⟩] at h ⊢
      have hnr : ∀ db, job ≠ .review db := by
        rintro db rfl
        obtain ⟨h, -⟩ := hb
        cases h
      have hjd := jobDone w rs fs rest job hd
      rcases network_cases w hmake rs (doJob w rs fs rest job).files rest with ⟨e, he, hn⟩ | ⟨k, g, cmds, h', o, c1, c2, c3, r, rfl, h1, h2, h3, h4, h5, hn⟩
      · rw [hn] at h; exact absurd h he
      · rw [hn] at h ⊢
        refine ⟨a ++ b ++ (c1 ++ c2 ++ c3), r, by simp, rs, job, true, _, a, b, c1 ++ c2 ++ c3, rfl, ha, hb, hjd, ?_⟩
        have hN : NetworkMade w rs (doJob w rs fs (c1 ++ c2 ++ c3 ++ r) job).files (doOutput w h' (doJob w rs fs (c1 ++ c2 ++ c3 ++ r) job).files o).files
            (c1 ++ c2 ++ c3) := ⟨k, g, cmds, h', o, c1, c2, c3, rfl, h1, h2, h3, h4, h5, outputDone w h' _ o h⟩
        have hB := bases_doOutput w h' (doJob w rs fs (c1 ++ c2 ++ c3 ++ r) job).files o
        cases job with
        | review db => exact absurd rfl (hnr db)
        | nothing => exact ⟨hB, hN⟩
        | writeFile f => exact ⟨hB, hN⟩
        | writeCSV f => exact ⟨hB, hN⟩
        | citations j f => exact ⟨hB, hN⟩
    · rw [if_neg hc] at h ⊢
      have hnet : net = false := by
        cases net with
        | false => rfl
        | true => exact absurd ⟨h, rfl⟩ hc
      subst hnet
      have hjd := jobDone w rs fs rest job h
      cases job with
      | review db =>
        refine ⟨a ++ b ++ rest, [], by simp, rs, .review db, false, _, a, b, rest, rfl, ha, hb, hjd, rfl, ?_⟩
        have hd : doJob w rs fs rest (.review db) = match review w.web w.upper (decide (db = w.manual)) (w.journals rs) rest (w.bases db) with
          | (.done, _, r) => ⟨.done, fs, some r⟩
          | (.eof, _, r) => ⟨ended w .eof, fs, some r⟩
          | (.raised _, _, r) => ⟨.failed, fs, some r⟩ := rfl
        rw [hd] at h ⊢
        revert h
        rcases review w.web w.upper (decide (db = w.manual)) (w.journals rs) rest (w.bases db) with ⟨e, asked, r⟩
        intro h
        cases e with
        | done => exact ⟨asked, r, rfl, rfl⟩
        | raised e => cases h
        | eof =>
          have h : ended w .eof = .done := h
          unfold ended at h
          cases hl : w.last <;> rw [hl] at h <;> cases h
      | nothing => exact ⟨a ++ b ++ [], rest, by simp, rs, _, false, _, a, b, [], rfl, ha, hb, hjd, rfl, rfl, rfl⟩
      | writeFile f => exact ⟨a ++ b ++ [], rest, by simp, rs, _, false, _, a, b, [], rfl, ha, hb, hjd, rfl, rfl, rfl⟩
      | writeCSV f => exact ⟨a ++ b ++ [], rest, by simp, rs, _, false, _, a, b, [], rfl, ha, hb, hjd, rfl, rfl, rfl⟩
      | citations j f => exact ⟨a ++ b ++ [], rest, by simp, rs, _, false, _, a, b, [], rfl, ha, hb, hjd, rfl, rfl, rfl⟩

theorem job_names (w : World ρ ν κ π) (fs : Files κ π) (job : Job) (net : Bool) (b : List Str) (f : Str)
    (h : JobTyped w.upper (NameTyped w.upper (taken w fs) w.name) w.manual job net b) (hf : jobFile job = some f) :
    ∃ l, (l ∈ b ∨ l = w.name ∧ w.name ≠ []) ∧ Names w l (w.path f) := by
  obtain ⟨pre, c, suffix, rfl, hs, hn⟩ := jobTyped_name h hf
  obtain ⟨l, hl, rfl⟩ := nameTyped_mem hn
  refine ⟨l, ?_, ?_⟩
  · rcases hl with hl | hl
    · exact .inl (by simp [hl])
    · exact .inr hl
  · rcases hs with rfl | rfl
    · exact .inl rfl
    · exact .inr (.inl rfl)

theorem out_names (w : World ρ ν κ π) (fs : Files κ π) (g : G ν) (o : Output) (c : List Str) (p : π)
    (h : OutTyped (NameTyped w.upper (taken w fs) w.name) (GraphTyped w.upper (taken w fs) (eitherThere w fs) w.name) w.contour o c)
    (hp : (doOutput w g fs o).files p ≠ fs p) :
    ∃ l, (l ∈ c ∨ l = w.name ∧ w.name ≠ []) ∧ Names w l p ∧ (w.name = [] → (fs p).isSome = true → Agreed w.upper l c) := by
  have hq := doOutput_other w g fs o p hp
  obtain ⟨keys, -, shows, a, b, rfl, -, h⟩ := h
  have hlift : ∀ {l}, (l ∈ b ∨ l = w.name ∧ w.name ≠ []) → (l ∈ shows.flatten ++ a ++ b ∨ l = w.name ∧ w.name ≠ []) := by
    intro l hl
    rcases hl with hl | hl
    · exact .inl (List.mem_append_right _ hl)
    · exact .inr hl
  have hsome : ∀ {f}, (fs (w.path f)).isSome = true → taken w fs f = true := by
    intro f hf
    unfold taken; rw [hf]; simp
  have one : ∀ (suffix f : Str), p = w.path f → (∀ l, p = w.path (l ++ suffix) → Names w l p) → NameTyped w.upper (taken w fs) w.name suffix f b →
      ∃ l, (l ∈ shows.flatten ++ a ++ b ∨ l = w.name ∧ w.name ≠ []) ∧ Names w l p ∧ (w.name = [] → (fs p).isSome = true → Agreed w.upper l (shows.flatten ++ a ++ b)) := by
    intro suffix f hpf hN hn
    by_cases hname : w.name = []
    · by_cases ht : (fs p).isSome = true
      · have hn' := hn
        unfold NameTyped at hn'
        rw [if_pos hname] at hn'
        obtain ⟨l, rfl, hl⟩ := nameAsked_agreed hn' (hsome (hpf ▸ ht))
        have hm : l ∈ b := by
          obtain ⟨pre, mid, ans, rfl, -, -⟩ := hl
          simp
        exact ⟨l, hlift (.inl hm), hN l hpf, fun _ _ => agreed_pre _ hl⟩
      · obtain ⟨l, hl, rfl⟩ := nameTyped_mem hn
        exact ⟨l, hlift hl, hN l hpf, fun _ h => absurd h ht⟩
    · obtain ⟨l, hl, rfl⟩ := nameTyped_mem hn
      exact ⟨l, hlift hl, hN l hpf, fun h => absurd h hname⟩
  cases o with
  | edges f => exact one ".csv".toList f hq (fun l e => .inr (.inl e)) h.2
  | nodes f => exact one ".csv".toList f hq (fun l e => .inr (.inl e)) h.2
  | graphml f => exact one ".graphml".toList f hq (fun l e => .inr (.inr (.inl e))) h.2
  | both f ov =>
    refine ⟨f, hlift (graphTyped_mem h.2), ?_, ?_⟩
    · rcases hq with hq | hq
      · exact .inr (.inr (.inr (.inl hq)))
      · exact .inr (.inr (.inr (.inr hq)))
    · intro hname ht
      have h2 := h.2
      unfold GraphTyped at h2
      rw [if_pos hname] at h2
      apply agreed_pre
      apply graphAsked_agreed h2
      unfold eitherThere
      rcases hq with hq | hq <;> rw [hq] at ht <;> rw [ht] <;> simp

/-- **C93**, other files. However a session ends, only files change that were named in it: by a line typed, with the suffix of the kind of file or as the name
of the two files of a graph, or by `--name`. -/
theorem C93_only_named (w : World ρ ν κ π) (hfull : ∀ f, w.full (w.full f) = w.full f) (hmake : ∀ net rs g, w.make net rs = some g → g.WF)
    (files : List Str) (fs : Files κ π) (lines : List Str) (p : π) (h : (mkCLI w files fs lines).files p ≠ fs p) :
    ∃ l, (l ∈ lines ∨ l = w.name ∧ w.name ≠ []) ∧ Names w l p := by
  rcases session_cases w hfull files fs lines with ⟨e, he, hs⟩ | ⟨rs, job, net, a, b, rest, rfl, ha, hb, hs⟩
  · rw [hs] at h; exact absurd rfl h
  · rw [hs] at h
    by_cases hj : (doJob w rs fs rest job).files p = fs p
    · split at h
      · rcases network_cases w hmake rs (doJob w rs fs rest job).files rest with ⟨e, he, hn⟩ | ⟨k, g, cmds, h', o, c1, c2, c3, r, rfl, h1, h2, h3, h4, h5, hn⟩
        · rw [hn] at h; exact absurd hj h
        · rw [hn, ← hj] at h
          obtain ⟨l, hl, hN, -⟩ := out_names w _ h' o c3 p h5 h
          refine ⟨l, ?_, hN⟩
          rcases hl with hl | hl
          · exact .inl (by simp [hl])
          · exact .inr hl
      · exact absurd hj h
    · obtain ⟨f, hf, rfl⟩ := doJob_other w rs fs rest job p hj
      obtain ⟨l, hl, hN⟩ := job_names w fs job net b f hb hf
      refine ⟨l, ?_, hN⟩
      rcases hl with hl | hl
      · exact .inl (by simp [hl])
      · exact .inr hl

/-- **C93 (part)**, existing files. However a session without `--name` ends, a file that was there before it only changes when it was named and then, without a no, agreed to.
What is missing: with `--name` nothing is asked (`C81_name_option`). -/
theorem C93_agreed_partial (w : World ρ ν κ π) (hfull : ∀ f, w.full (w.full f) = w.full f) (hmake : ∀ net rs g, w.make net rs = some g → g.WF)
    (hname : w.name = []) (files : List Str) (fs : Files κ π) (lines : List Str) (p : π) (c : κ) (hp : fs p = some c)
    (h : (mkCLI w files fs lines).files p ≠ some c) :
    ∃ pre l mid yes post, lines = pre ++ l :: (mid ++ yes :: post) ∧ Names w l p ∧ Means w.upper true yes ∧ ∀ m ∈ mid, ¬ Means w.upper false m := by
  rw [← hp] at h
  have lift : ∀ {l : Str} {b : List Str} (x y : List Str), lines = x ++ b ++ y → Agreed w.upper l b → Names w l p →
      ∃ pre l mid yes post, lines = pre ++ l :: (mid ++ yes :: post) ∧ Names w l p ∧ Means w.upper true yes ∧ ∀ m ∈ mid, ¬ Means w.upper false m := by
    rintro l b x y rfl ⟨pre, mid, yes, rfl, h1, h2⟩ hN
    exact ⟨x ++ pre, l, mid, yes, y, by simp, hN, h1, h2⟩
  rcases session_cases w hfull files fs lines with ⟨e, he, hs⟩ | ⟨rs, job, net, a, b, rest, hl, ha, hb, hs⟩
  · rw [hs] at h; exact absurd rfl h
  · rw [hs] at h
    by_cases hj : (doJob w rs fs rest job).files p = fs p
    · split at h
      · rcases network_cases w hmake rs (doJob w rs fs rest job).files rest with ⟨e, he, hn⟩ | ⟨k, g, cmds, h', o, c1, c2, c3, r, hr, h1, h2, h3, h4, h5, hn⟩
        · rw [hn] at h; exact absurd hj h
        · rw [hn, ← hj] at h
          obtain ⟨l, -, hN, hA⟩ := out_names w _ h' o c3 p h5 h
          exact lift (a ++ b ++ c1 ++ c2) r (by rw [hl, hr]; simp) (hA hname (by rw [hj, hp]; rfl)) hN
      · exact absurd hj h
    · obtain ⟨f, hf, rfl⟩ := doJob_other w rs fs rest job p hj
      obtain ⟨pre, d, suffix, rfl, hsuf, hn⟩ := jobTyped_name hb hf
      unfold NameTyped at hn
      rw [if_pos hname] at hn
      have ht : taken w fs f = true := by unfold taken; rw [hp]; simp
      obtain ⟨l, rfl, hA⟩ := nameAsked_agreed hn ht
      refine lift (a ++ pre) rest (by rw [hl]; simp) hA ?_
      rcases hsuf with rfl | rfl
      · exact .inl rfl
      · exact .inr (.inl rfl)

theorem doJob_fin (w : World ρ ν κ π) (rs : List ρ) (fs : Files κ π) (lines : List Str) (job : Job)
    (h : (doJob w rs fs lines job).fin = .exited ∨ (doJob w rs fs lines job).fin = .interrupted) : (doJob w rs fs lines job).files = fs := by
  have aft : ∀ x : Bool × Files κ π, ¬ ((after x).fin = .exited ∨ (after x).fin = .interrupted) := by
    rintro ⟨b, x⟩
    cases b <;> simp [after]
  cases job with
  | nothing => rfl
  | writeFile f => exact absurd h (aft _)
  | writeCSV f => exact absurd h (aft _)
  | citations b f => exact absurd h (aft _)
  | review db =>
    unfold doJob
    dsimp only
    rcases review w.web w.upper (decide (db = w.manual)) (w.journals rs) lines (w.bases db) with ⟨e, _, _⟩
    cases e <;> rfl

theorem doOutput_fin (w : World ρ ν κ π) (g : G ν) (fs : Files κ π) (o : Output) :
    ¬ ((doOutput w g fs o).fin = .exited ∨ (doOutput w g fs o).fin = .interrupted) := by
  have aft : ∀ x : Bool × Files κ π, ¬ ((after x).fin = .exited ∨ (after x).fin = .interrupted) := by
    rintro ⟨b, x⟩
    cases b <;> simp [after]
  cases o with
  | both f b =>
    rw [doOutput_both]
    rcases write w (w.edgeName f) (w.edges (w.edgeName f) g) fs with ⟨r, mid⟩
    cases r
    · exact aft _
    · simp
  | edges f => exact aft _
  | nodes f => exact aft _
  | graphml f => exact aft _

/-- **C93**, leaving. When the user quits or interrupts, the files are as they were, or as the job left them that was done before a network was to be made. -/
theorem C93_left (w : World ρ ν κ π) (hfull : ∀ f, w.full (w.full f) = w.full f) (hmake : ∀ net rs g, w.make net rs = some g → g.WF)
    (files : List Str) (fs : Files κ π) (lines : List Str)
    (h : (mkCLI w files fs lines).fin = .exited ∨ (mkCLI w files fs lines).fin = .interrupted) :
    (mkCLI w files fs lines).files = fs ∨
    ∃ rs job a b rest, lines = a ++ b ++ rest ∧ FilesTyped w files rs a ∧
      JobTyped w.upper (NameTyped w.upper (taken w fs) w.name) w.manual job true b ∧ JobDone w rs fs (mkCLI w files fs lines).files job := by
  rcases session_cases w hfull files fs lines with ⟨e, he, hs⟩ | ⟨rs, job, net, a, b, rest, hl, ha, hb, hs⟩
  · rw [hs]; exact .inl rfl
  · rw [hs] at h ⊢
    split at h
    · rename_i hc
      rw [if_pos hc]
      obtain ⟨hd, rfl⟩ := hc
      refine .inr ⟨rs, job, a, b, rest, hl, ha, hb, ?_⟩
      rcases network_cases w hmake rs (doJob w rs fs rest job).files rest with ⟨e, he, hn⟩ | ⟨k, g, cmds, h', o, c1, c2, c3, r, hr, h1, h2, h3, h4, h5, hn⟩
      · rw [hn]; exact jobDone w rs fs rest job hd
      · rw [hn] at h; exact absurd h (doOutput_fin w h' _ o)
    · rename_i hc
      rw [if_neg hc]
      exact .inl (doJob_fin w rs fs rest job h)

/-- Nothing raises: not the readers, nor what makes networks, nor what writes files. -/
structure Calm (w : World ρ ν κ π) : Prop where
  read : ∀ p, w.there p = true → (w.read p).isSome = true
  make : ∀ net rs, ∃ g, w.make net rs = some g ∧ g.WF ∧ ∀ u v a, g.edge? u v = some a → ∃ x, a.get? "weight" = some (.num x)
  wos : ∀ f rs, (w.wos f rs).raises = false
  csv : ∀ f rs, (w.csv f rs).raises = false
  cites : ∀ b f rs, (w.cites b f rs).raises = false
  edges : ∀ f g, (w.edges f g).raises = false
  nodes : ∀ f g, (w.nodes f g).raises = false
  graphml : ∀ f g, (w.graphml f g).raises = false

/-- **C93**, the other way round. When nothing raises, every session typed as it should be, other than going over the citations (C88), ends normally. -/
theorem C93_ends (w : World ρ ν κ π) (hfull : ∀ f, w.full (w.full f) = w.full f) (hw : Calm w) (files : List Str) (fs : Files κ π) (a tail : List Str)
    (ha : ∃ rs, FilesTyped w files rs a)
    (h : ∀ rs, FilesTyped w files rs a → ∃ job net b c, tail = b ++ c ∧ (∀ db, job ≠ .review db) ∧
      JobTyped w.upper (NameTyped w.upper (taken w fs) w.name) w.manual job net b ∧
      (net = true → ∃ kind cmds c1 c2 c3 rest, c = c1 ++ c2 ++ c3 ++ rest ∧ NetTyped w.upper (w.tags rs) kind c1 ∧ FiltersTyped w.num cmds c2 ∧
        ∀ mid, JobDone w rs fs mid job → ∃ o,
          OutTyped (NameTyped w.upper (taken w mid) w.name) (GraphTyped w.upper (taken w mid) (eitherThere w mid) w.name) w.contour o c3)) :
    (mkCLI w files fs (a ++ tail)).fin = .done := by
  have hget : ∃ rs, getFiles w.full w.there w.read files (a ++ tail) = .ok (rs, tail) := by
    obtain ⟨rs, hf⟩ := ha
    rcases hf with ⟨hne, rfl, hc⟩ | ⟨rfl, junk, paths, rfl, hne, hb, hc, hj⟩
    · exact (C87_files_read w.full hfull w.there w.read files hne (fun p hp => ⟨hc.1 p hp, hw.read _ (hc.1 p hp)⟩) tail).1
    · have := (C87_files_read w.full hfull w.there w.read paths hne (fun p hp => ⟨hc.1 p hp, hw.read _ (hc.1 p hp)⟩) tail).2 junk hb hj
      simpa using this
  obtain ⟨rs, hget⟩ := hget
  obtain ⟨a', e, hft⟩ := filesTyped w hfull files (a ++ tail) tail rs hget
  have : a' = a := (List.append_cancel_right e).symm
  subst this
  obtain ⟨job, net, b, c, rfl, hnr, hj, hn⟩ := h rs hft
  have hg : getWhatToDo w.upper (exist w fs) w.name w.manual (b ++ c) = .ok ((job, net), c) := (C87_job _ _ _ _ _ _ _ _).2 ⟨b, rfl, hj⟩
  have hdone : (doJob w rs fs c job).fin = .done := by
    have aft : ∀ f x (fs : Files κ π), x.raises = false → (after (write w f x fs)).fin = .done := by
      intro f x fs hx
      unfold after write
      rw [hx]; rfl
    cases job with
    | nothing => rfl
    | writeFile f => exact aft _ _ _ (hw.wos _ _)
    | writeCSV f => exact aft _ _ _ (hw.csv _ _)
    | citations b f => exact aft _ _ _ (hw.cites _ _ _)
    | review db => exact absurd rfl (hnr db)
  have hjd := jobDone w rs fs c job hdone
  unfold mkCLI
  rw [hget]
  dsimp only
  rw [hg]
  dsimp only
  rcases hdj : doJob w rs fs c job with ⟨e, mid, bs⟩
  rw [hdj] at hdone hjd
  dsimp only at hdone hjd
  subst hdone
  dsimp only
  cases net with
  | false => rfl
  | true =>
    rw [if_pos rfl]
    obtain ⟨kind, cmds, c1, c2, c3, rest, rfl, h1, h2, h3⟩ := hn rfl
    obtain ⟨o, h3⟩ := h3 mid hjd
    obtain ⟨g, hm, hwf, hweights⟩ := hw.make kind rs
    unfold network
    rw [(C87_network w.upper (w.tags rs) (c1 ++ c2 ++ c3 ++ rest) (c2 ++ (c3 ++ rest)) kind).2 ⟨c1, by simp, h1⟩]
    dsimp only
    rw [hm]
    dsimp only
    obtain ⟨k, hk⟩ := filters_total w.num cmds c2 (c3 ++ rest) h2 g (fun e => C80_no_filter_raises w.num _ g hwf hweights e)
    rw [hk]
    dsimp only
    rw [(C87_output w.upper (exist w mid) (clash w mid) w.contour w.name _ (c3 ++ rest) rest (Nat.lt_succ_self _) o).2 ⟨c3, rfl, h3⟩]
    dsimp only
    have aft : ∀ f x (fs : Files κ π), x.raises = false → (after (write w f x fs)).fin = .done := by
      intro f x fs hx
      unfold after write
      rw [hx]; rfl
    cases o with
    | edges f => exact aft _ _ _ (hw.edges _ _)
    | nodes f => exact aft _ _ _ (hw.nodes _ _)
    | graphml f => exact aft _ _ _ (hw.graphml _ _)
    | both f ov =>
      rw [doOutput_both]
      have hr : (write w (w.edgeName f) (w.edges (w.edgeName f) k) mid).1 = false := hw.edges _ _
      revert hr
      rcases write w (w.edgeName f) (w.edges (w.edgeName f) k) mid with ⟨r, mid'⟩
      intro hr
      dsimp only at hr
      subst hr
      exact aft _ _ _ (hw.nodes _ _)

/-- **C93 is false of the code** for the status of the program: a session that ends normally has the status of one that fails, 1, and only those that are left early
have the status of success, 0. -/
theorem C93_status (w : World ρ ν κ π) (files : List Str) (fs : Files κ π) (lines : List Str) :
    status (mkCLI w files fs lines).fin = 0 ↔ (mkCLI w files fs lines).fin = .exited ∨ (mkCLI w files fs lines).fin = .interrupted := by
  cases (mkCLI w files fs lines).fin <;> simp [status]

/-! ## Sessions -/

/-- Records are numbers and the contents of a file are its kind, the records or the number of nodes of the graph. Paths are names without an initial `./`. -/
def w1 : World Nat Nat (Str × List Nat) Str where
  upper := CliRun.up1
  last := .eof
  full := full1
  there := fun p => (read1 p).isSome
  read := read1
  tags := fun _ => tags1
  make := fun _ _ => some ⟨false, [(1, []), (2, []), (3, [])], [((1, 2), [("weight", .num 4)])]⟩
  num := fun l => if l = ['5'] then some 5 else none
  contour := false
  name := []
  manual := "db".toList
  path := fun f => if f.take 2 = "./".toList then f.drop 2 else f
  other := fun _ => false
  wos := fun _ rs => ⟨some ("wos".toList, rs), false⟩
  csv := fun _ rs => ⟨some ("csv".toList, rs), false⟩
  cites := fun _ _ rs => ⟨some ("cites".toList, rs), false⟩
  edges := fun _ g => ⟨some ("edges".toList, [g.edges.length]), false⟩
  nodes := fun _ g => ⟨some ("nodes".toList, [g.nodes.length]), false⟩
  graphml := fun _ g => ⟨some ("graphml".toList, [g.nodes.length]), false⟩
  edgeName := fun f => f ++ "_edgeList.csv".toList
  nodeName := fun f => f ++ "_nodeAttributes.csv".toList
  journals := fun _ => []
  bases := fun _ => ⟨⟨⟨[], none⟩, none⟩, none⟩
  web := none

/-- One file is there, `a.csv`. -/
def fs1 : Files (Str × List Nat) Str := fun p => if p = "a.csv".toList then some ("old".toList, []) else none

def typed1 : List Str := (["a c", "a b", "5", "a", "n", "b", "1", "af", "1", "0", "2", "./b", "x", "y", "more"].map String.toList)

/-- The collection is written to `b.csv`, and after a question the list of edges of the network without its isolated node too. -/
example : (mkCLI w1 [] fs1 typed1).fin = .done ∧ (mkCLI w1 [] fs1 typed1).files "b.csv".toList = some ("edges".toList, [1]) ∧
    (mkCLI w1 [] fs1 typed1).files "a.csv".toList = some ("old".toList, []) := by decide +kernel

/-- Without the question answered the collection is left in `b.csv`. -/
example : (mkCLI w1 [] fs1 (typed1.take 12)).fin = .failed ∧ (mkCLI w1 [] fs1 (typed1.take 12)).files "b.csv".toList = some ("csv".toList, [1, 2, 3]) := by
  decide +kernel

/-- Quitting at the menu of filters. -/
example : (mkCLI w1 ["a".toList] fs1 (["3", "a", "4", "1", "q"].map String.toList)).fin = .exited ∧
    (mkCLI w1 ["a".toList] fs1 (["3", "a", "4", "1", "q"].map String.toList)).files "a.txt".toList = some ("wos".toList, [1, 2]) := by decide +kernel

/-- Both files of a graph. -/
example : (mkCLI w1 ["a".toList] fs1 (["1", "4", "1", "0", "1", "g"].map String.toList)).fin = .done ∧
    (mkCLI w1 ["a".toList] fs1 (["1", "4", "1", "0", "1", "g"].map String.toList)).files "g_nodeAttributes.csv".toList = some ("nodes".toList, [2]) := by
  decide +kernel

/-- A file that was there is written to after a yes. -/
example : (mkCLI w1 ["a".toList] fs1 (["4", "a", "y"].map String.toList)).files "a.csv".toList = some ("csv".toList, [1, 2]) := by decide +kernel

example : ∀ f, w1.full (w1.full f) = w1.full f := by
  intro f
  show full1 (full1 f) = full1 f
  unfold full1
  split
  · rfl
  · split <;> rfl
example : Calm w1 where
  read := fun _ h => h
  make := fun _ _ => ⟨_, rfl, ⟨by decide, by decide, by decide⟩, by
    intro u v a h
    obtain ⟨e, he, -, rfl⟩ := (edge?_eq_some_iff (g := (⟨false, [(1, []), (2, []), (3, [])], [((1, 2), [("weight", .num 4)])]⟩ : G Nat)) ⟨by decide, by decide, by decide⟩ u v a).1 h
    simp at he
    subst he
    exact ⟨4, rfl⟩⟩
  wos := fun _ _ => rfl
  csv := fun _ _ => rfl
  cites := fun _ _ _ => rfl
  edges := fun _ _ => rfl
  nodes := fun _ _ => rfl
  graphml := fun _ _ => rfl

end Verif.Props.CliSession
