import Verif.Props.Pipeline
import Verif.Props.ScopusPipeline

/-! # C113: a Web of Science file that was saved, any number of times, gives the same networks and tables -/
set_option autoImplicit false
set_option linter.unusedSimpArgs false
namespace Verif.Props.PipelineSaved
open Verif.Py Verif.Model.WosFields Verif.Model.RecordAccess Verif.Model.Pipeline Verif.Spec.Pipeline Verif.Spec Verif.Lemmas.Pipeline
open Verif.Model.Series Verif.Props.Pipeline

section
variable {W : World} {order order' : List Model.Wos.Rec → List Model.Wos.Rec} {before before' : Model.Wos.Rec → List (Op String FVal)} {origin : Str} {papers : List Paper}

/-- What `writeFile` writes for the collection made from a file: a file of the same papers in some order. -/
theorem C113_rewritten (h : Setting W order) (hf : FileOk W.ws origin papers) (hne : papers ≠ []) :
    ∃ papers' : List Paper, papers'.Perm papers ∧ rewritten W order (fileText origin papers) = some (fileText banner papers') ∧ FileOk W.ws banner papers' := by
  obtain ⟨papers', h1, h2⟩ := ScopusPipeline.preimage (h.perm (papers.map toRec))
  refine ⟨papers', h1, ?_, ?_⟩
  · unfold rewritten
    rw [records_eq W order h.nl h.E hf, h2]
    have hne' : papers' ≠ [] := fun e => hne (by rw [e] at h1; exact h1.nil_eq.symm ▸ rfl)
    show Model.Wos.writeFile (papers'.map toRec) = _
    have hw : ∀ ps : List Paper, (∀ p ∈ ps, PaperOk W.ws p) → ∃ ts, (ps.map toRec).mapM Model.Wos.writeRecord = some ts ∧
        (ts.map (· ++ ['\n'])).flatten = ps.flatMap (fun p => (Verif.Spec.Wos.recordLines p).flatten ++ "ER\n\n".toList) := by
      intro ps
      induction ps with
      | nil => intro _; exact ⟨[], rfl, rfl⟩
      | cons p ps ih =>
        intro hps
        obtain ⟨ts, t1, t2⟩ := ih (fun q hq => hps q (List.mem_cons_of_mem _ hq))
        refine ⟨((Verif.Spec.Wos.recordLines p).flatten ++ "ER\n".toList) :: ts, ?_, ?_⟩
        · rw [List.map_cons, List.mapM_cons, (good (hps p (by simp))).text, t1]; rfl
        · rw [List.map_cons, List.flatten_cons, t2, List.flatMap_cons, List.append_assoc, List.append_assoc, List.append_assoc]
          rfl
    obtain ⟨ts, t1, t2⟩ := hw papers' (fun p hp => hf.each p (h1.mem_iff.1 hp))
    unfold Model.Wos.writeFile
    rw [if_neg (by simpa using hne'), t1, Option.map_some, t2]
    rfl
  · exact ⟨fun p hp => hf.each p (h1.mem_iff.1 hp), (h1.map _).nodup_iff.2 hf.different, by decide +kernel⟩

/-- **C113, saved any number of times.** Reading a file and writing it, any number of times and whatever the orders of the sets, succeeds, and gives a file of the
same papers in some order. -/
theorem C113_saved (hnl : W.ws '\n' = true) (hE : W.ws 'E' = false) (hf : FileOk W.ws origin papers) (hne : papers ≠ [])
    (orders : List (List Model.Wos.Rec → List Model.Wos.Rec)) (ho : Orders orders) :
    ∃ (origin' : Str) (papers' : List Paper), papers'.Perm papers ∧ resaved W orders (fileText origin papers) = some (fileText origin' papers') ∧
      FileOk W.ws origin' papers' := by
  induction orders generalizing origin papers with
  | nil => exact ⟨origin, papers, .refl _, rfl, hf⟩
  | cons o os ih =>
    obtain ⟨ps, h1, h2, h3⟩ := C113_rewritten (order := o) ⟨hnl, hE, ho o (by simp)⟩ hf hne
    obtain ⟨origin', ps', i1, i2, i3⟩ := ih h3 (fun e => hne (by rw [e] at h1; exact h1.nil_eq.symm ▸ rfl)) (fun q hq => ho q (by simp [hq]))
    exact ⟨origin', ps', i1.trans h1, by rw [resaved, h2, Option.bind_some, i2], i3⟩

/-- Every tag reads the same, whatever was read before. -/
theorem value_before {r : Model.Wos.Rec} (hf : PaperOk W.ws r.fields) (hr : r = toRec r.fields) (k : String) :
    value W before' k r = value W before k r := by
  rw [hr]
  have e : ∀ b : Model.Wos.Rec → List (Op String FVal), (getitem (cls W) 3 (held W (b (toRec r.fields)) (toRec r.fields)) k).1 =
      (getitem (cls W) 3 (fresh (strFields r.fields)) k).1 := fun b =>
    (Verif.Props.C28_wos_records (cls W).proc W.truthy W.fin W.ident W.noGrants (strFields r.fields) (noClash W hf) (b (toRec r.fields)) k).2.1
  unfold value
  rw [e, e]

/-- **C113, the records.** The collection made from what was saved has the same records, and each of them gives the same under every tag, whatever was read
of them. -/
theorem C113_records (h : Setting W order) (ho' : ∀ rs, (order' rs).Perm rs) (hf : FileOk W.ws origin papers) (hne : papers ≠ [])
    (orders : List (List Model.Wos.Rec → List Model.Wos.Rec)) (ho : Orders orders) :
    ∃ text rs rs', resaved W orders (fileText origin papers) = some text ∧ records W order (fileText origin papers) = some rs ∧ records W order' text = some rs' ∧
      rs'.Perm rs ∧ ∀ r ∈ rs, ∀ k, value W before' k r = value W before k r := by
  obtain ⟨origin', ps, h1, h2, h3⟩ := C113_saved h.nl h.E hf hne orders ho
  refine ⟨_, _, _, h2, records_eq W order h.nl h.E hf, records_eq W order' h.nl h.E h3, (ho' _).trans ((h1.map toRec).trans (h.perm _).symm), ?_⟩
  intro r hr k
  obtain ⟨a, b, _⟩ := of_order h hf hr
  exact value_before a b k

theorem mapM_perm {α β ε : Type} (f f' : α → Except ε β) (l l' : List α) (hp : l'.Perm l) (hf : ∀ a ∈ l, f' a = f a) (bs : List β) (h : l.mapM f = .ok bs) :
    ∃ bs', l'.mapM f' = .ok bs' ∧ bs'.Perm bs := by
  have hall : ∀ (l : List α) (bs : List β), l.mapM f = .ok bs → List.Forall₂ (fun a b => f a = .ok b) l bs := by
    intro l
    induction l with
    | nil => intro bs h; obtain rfl := Except.ok.inj h; exact .nil
    | cons a l ih =>
      intro bs h
      rw [List.mapM_cons] at h
      cases ha : f a with
      | error e => rw [ha] at h; cases h
      | ok b =>
        rw [ha] at h
        cases hl : l.mapM f with
        | error e => rw [hl] at h; cases h
        | ok cs => rw [hl] at h; obtain rfl := Except.ok.inj h; exact .cons ha (ih cs hl)
  obtain ⟨bs', w1, w2⟩ := List.perm_comp_forall₂ hp (hall l bs h)
  refine ⟨bs', ?_, w2⟩
  have hf' : ∀ a ∈ l', f' a = f a := fun a ha => hf a (hp.mem_iff.1 ha)
  clear hp w2 h
  induction w1 with
  | nil => rfl
  | cons e _ ih => rw [List.mapM_cons, hf' _ (by simp), e, ih (fun a ha => hf' a (by simp [ha]))]; rfl

/-- **C113, networks.** The network of any tag made from what was saved has the edges and nodes, with their counts, of the one made from the file. -/
theorem C113_one_mode (h : Setting W order) (ho' : ∀ rs, (order' rs).Perm rs) (hf : FileOk W.ws origin papers) (hne : papers ≠ [])
    (orders : List (List Model.Wos.Rec → List Model.Wos.Rec)) (ho : Orders orders) (k : String) (nodeCount edgeWeight : Bool)
    (g : Model.Networks.Net Str) (hg : oneMode W before order k nodeCount edgeWeight (fileText origin papers) = some (.ok g)) :
    ∃ text g', resaved W orders (fileText origin papers) = some text ∧ oneMode W before' order' k nodeCount edgeWeight text = some (.ok g') ∧
      (∀ a b, g'.edge? a b = g.edge? a b) ∧ ∀ a, g'.node? a = g.node? a := by
  obtain ⟨text, rs, rs', t1, t2, t3, t4, t5⟩ := C113_records (before := before) (before' := before') h ho' hf hne orders ho
  unfold oneMode at hg
  rw [t2] at hg
  have hg := Option.some.inj hg
  dsimp only at hg
  cases hm : rs.mapM (value W before k) with
  | error e => rw [hm] at hg; cases hg
  | ok vs =>
    rw [hm] at hg
    obtain ⟨vs', m1, m2⟩ := mapM_perm _ (value W before' k) rs rs' t4 (fun r hr => t5 r hr k) vs hm
    obtain rfl := Except.ok.inj hg
    refine ⟨text, _, t1, by unfold oneMode; rw [t3, Option.map_some, m1]; rfl, ?_⟩
    exact Verif.Props.C12_order_independent nodeCount edgeWeight nodeText (fun (v : Option FVal) (_ : Unit) => v.map fieldVal) [()] vs' vs m2

/-- **C113, co-authors.** The network of co-authors made from what was saved has the nodes and edges, with their weights, of the one made from the file. -/
theorem C113_coauthors (h : Setting W order) (ho' : ∀ rs, (order' rs).Perm rs) (hf : FileOk W.ws origin papers) (hne : papers ≠ [])
    (orders : List (List Model.Wos.Rec → List Model.Wos.Rec)) (ho : Orders orders) (useShort weighted count : Bool) :
    ∃ text g g', resaved W orders (fileText origin papers) = some text ∧ coAuthors W before order useShort weighted count (fileText origin papers) = some (.ok g) ∧
      coAuthors W before' order' useShort weighted count text = some (.ok g') ∧
      (∀ a b, g'.edge? a b = g.edge? a b) ∧ ∀ a, g'.hasNode a = g.hasNode a := by
  obtain ⟨origin', ps, h1, h2, h3⟩ := C113_saved h.nl h.E hf hne orders ho
  obtain ⟨g, g1, g2, g3⟩ := C104_coauthors before h hf useShort weighted count
  obtain ⟨g', g1', g2', g3'⟩ := C104_coauthors before' (order := order') ⟨h.nl, h.E, ho'⟩ h3 useShort weighted count
  refine ⟨_, g, g', h2, g1, g1', fun a b => ?_, fun a => ?_⟩
  · rw [g2, g2', (h1.map _).sum_nat]
  · rw [Bool.eq_iff_iff, g3, g3']
    exact exists_congr (fun p => and_congr_left (fun _ => h1.mem_iff))

/-- **C113, tables.** `rankedSeries` of any tag made from what was saved has the entries, with their counts, of the one made from the file. -/
theorem C113_ranked (h : Setting W order) (ho' : ∀ rs, (order' rs).Perm rs) (hf : FileOk W.ws origin papers) (hne : papers ≠ [])
    (orders : List (List Model.Wos.Rec → List Model.Wos.Rec)) (ho : Orders orders) (k : String) (gf : Bool) (lim : Option (List FVal)) (l : List (FVal × Nat))
    (hl : ranked W before order k true false gf false lim (fileText origin papers) = some (.ok (.ok (.pairs l)))) :
    ∃ text l', resaved W orders (fileText origin papers) = some text ∧ ranked W before' order' k true false gf false lim text = some (.ok (.ok (.pairs l'))) ∧
      l'.Perm l ∧ (gf = true → l'.Pairwise (fun a b => b.2 ≤ a.2)) ∧ (gf = false → l'.Pairwise (fun a b => a.2 ≤ b.2)) := by
  obtain ⟨text, rs, rs', t1, t2, t3, t4, t5⟩ := C113_records (before := before) (before' := before') h ho' hf hne orders ho
  unfold ranked at hl
  rw [t2] at hl
  have hl := Option.some.inj hl
  dsimp only at hl
  cases hm : rs.mapM (value W before k) with
  | error e => rw [hm] at hl; cases hl
  | ok vs =>
    rw [hm] at hl
    obtain ⟨vs', m1, m2⟩ := mapM_perm _ (value W before' k) rs rs' t4 (fun r hr => t5 r hr k) vs hm
    have hl := Except.ok.inj hl
    obtain ⟨L, a1, ⟨a2, a3⟩, -, -⟩ := Verif.Props.C09_counts (fun v : Option FVal => v.map fieldVal) vs gf lim
    obtain ⟨L', b1, ⟨b2, b3⟩, b4, b5⟩ := Verif.Props.C09_counts (fun v : Option FVal => v.map fieldVal) vs' gf lim
    rw [a1] at hl
    have e := Except.ok.inj hl
    have e : L = l := Ranked.pairs.inj e
    subst e
    refine ⟨text, L', t1, by unfold ranked; rw [t3, Option.map_some, m1]; exact congrArg (fun x => some (Except.ok x)) b1, ?_, b4, b5⟩
    rw [List.perm_ext_iff_of_nodup b2.of_map a2.of_map]
    rintro ⟨v, n⟩
    rw [a3, b3]
    unfold occurrences
    rw [(m2.map _).sum_nat]

/-- **C113, co-citation.** The network of the cited works made from what was saved has the nodes and edges, with their weights, of the one made from the file. -/
theorem C113_cocitation (h : Setting W order) (ho' : ∀ rs, (order' rs).Perm rs) (hf : FileOk W.ws origin papers) (hne : papers ≠ [])
    (orders : List (List Model.Wos.Rec → List Model.Wos.Rec)) (ho : Orders orders) (env : Model.CiteNetworks.Env) (own : Model.Wos.Rec → Model.Citation.Cite)
    (o : Model.CiteNetworks.Opts) (hco : o.coreOnly = false) (hnt : o.nodeType = .full ∨ o.nodeType = .original) :
    ∃ text g g', resaved W orders (fileText origin papers) = some text ∧ coCitations W before order env o own (fileText origin papers) = some (.ok (.ok g)) ∧
      coCitations W before' order' env o own text = some (.ok (.ok g')) ∧ (∀ a b, g'.edge? a b = g.edge? a b) ∧ ∀ a, g'.hasNode a = g.hasNode a := by
  obtain ⟨origin', ps, h1, h2, h3⟩ := C113_saved h.nl h.E hf hne orders ho
  obtain ⟨work, w1, g, g1, g2, g3⟩ := C104_cocitation before h hf env own o hco hnt
  obtain ⟨work', w1', g', g1', g2', g3'⟩ := C104_cocitation before' (order := order') ⟨h.nl, h.E, ho'⟩ h3 env own o hco hnt
  have e : work' = work := by
    funext line
    obtain ⟨q, a1, a2, _⟩ := w1 line
    obtain ⟨q', b1, b2, _⟩ := w1' line
    rw [a1] at b1
    obtain rfl := Option.some.inj b1
    rw [← a2, b2]
  subst e
  refine ⟨_, g, g', h2, g1, g1', fun a b => ?_, fun a => ?_⟩
  · rw [g2, g2', (h1.map _).sum_nat]
  · rw [Bool.eq_iff_iff, g3, g3']
    exact exists_congr (fun p => and_congr_left (fun _ => h1.mem_iff))

end

example : ∃ text g g', resaved w [List.reverse, id] (fileText "FN Clarivate".toList file) = some text ∧
    oneMode w (fun _ => []) List.reverse "WC" true true (fileText "FN Clarivate".toList file) = some (.ok g) ∧
    oneMode w (fun _ => [.item "WC"]) id "WC" true true text = some (.ok g') ∧ g'.edge? "Physics".toList "Applied Mathematics".toList = some (some 1) := by
  obtain ⟨g, h1, h2, _⟩ := C104_subjects (fun _ => []) setting file_ok "WC" "subjects" "WC" (by unfold TagTable.Wos; decide +kernel) (.inl rfl) (by decide)
    (fun p => if linesOf p "WC" = [] then [] else ["Physics".toList, "Applied Mathematics".toList]) (by decide +kernel) true true
  obtain ⟨text, g', t1, t2, t3, _⟩ := C113_one_mode (before' := fun _ => [.item "WC"]) (order' := id) setting (fun _ => .refl _) file_ok (by decide)
    [List.reverse, id] (by
      intro o ho rs
      simp only [List.mem_cons, List.not_mem_nil, or_false] at ho
      rcases ho with rfl | rfl
      · exact List.reverse_perm rs
      · exact .refl _) "WC" true true g h1
  exact ⟨text, g, g', t1, h1, t2, (t3 _ _).trans ((h2 _ _).trans (by decide +kernel))⟩

private theorem orders_ok : Orders (ρ := Model.Wos.Rec) [List.reverse, id] := by
  intro o ho rs
  simp only [List.mem_cons, List.not_mem_nil, or_false] at ho
  rcases ho with rfl | rfl
  · exact List.reverse_perm rs
  · exact .refl _

example := C113_rewritten setting file_ok (by decide)
example := C113_saved setting.nl setting.E file_ok (by decide) _ orders_ok
example := C113_records (before := fun _ => []) (before' := fun _ => [.item "AF"]) (order' := id) setting (fun _ => .refl _) file_ok (by decide) _ orders_ok
example := C113_coauthors (before := fun _ => []) (before' := fun _ => [.item "AF"]) (order' := id) setting (fun _ => .refl _) file_ok (by decide) _ orders_ok false true true
example := C113_cocitation (before := fun _ => []) (before' := fun _ => [.item "CR"]) (order' := id) setting (fun _ => .refl _) file_ok (by decide) _ orders_ok
  ⟨id, fun _ => true, fun _ => 0⟩ (fun _ => ⟨[], [], none, none, none, none, none, none, false⟩) ⟨.original, false, false, .none, false, true, true⟩ rfl (.inr rfl)

example : ∃ text l l', resaved w [List.reverse, id] (fileText "FN Clarivate".toList file) = some text ∧
    ranked w (fun _ => []) List.reverse "AF" true false true false none (fileText "FN Clarivate".toList file) = some (.ok (.ok (.pairs l))) ∧
    ranked w (fun _ => [.item "AF"]) id "AF" true false true false none text = some (.ok (.ok (.pairs l'))) ∧ l'.Perm l := by
  obtain ⟨l, h1, _⟩ := C104_ranked (fun _ => []) setting file_ok "AF" "authorsFull" "AF" (by unfold TagTable.Wos; decide +kernel) (.inl rfl) (by decide) true
  obtain ⟨text, l', t1, t2, t3, _⟩ := C113_ranked (before' := fun _ => [.item "AF"]) (order' := id) setting (fun _ => .refl _) file_ok (by decide) _ orders_ok
    "AF" true none _ h1
  exact ⟨text, _, l', t1, h1, t2, t3⟩

end Verif.Props.PipelineSaved
