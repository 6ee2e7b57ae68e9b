import Verif.Spec.DocsGen

/-! # Lemmas for the documentation generator -/
set_option autoImplicit false
set_option linter.unusedSimpArgs false
namespace Verif.Lemmas.DocsGen
open Verif.Py Verif.Model.DocsGen Verif.Spec.DocsGen

/-! ## Runs that end normally -/

def Ok {α : Type} (x : Except Err α) : Prop := ∃ r, x = .ok r

theorem ok_pure {α : Type} (a : α) : Ok (pure a : Except Err α) ↔ True := iff_true_intro ⟨a, rfl⟩
theorem ok_ok {α : Type} (a : α) : Ok (.ok a : Except Err α) ↔ True := iff_true_intro ⟨a, rfl⟩
theorem ok_error {α : Type} (e : Err) : Ok (.error e : Except Err α) ↔ False := iff_false_intro (fun ⟨_, h⟩ => by cases h)

theorem ok_bind {α β : Type} (x : Except Err α) (k : α → Except Err β) : Ok (x >>= k) ↔ ∃ a, x = .ok a ∧ Ok (k a) := by
  cases x with
  | error e => exact ⟨fun ⟨_, h⟩ => (by cases h), fun ⟨_, h, _⟩ => (by cases h)⟩
  | ok a => exact ⟨fun h => ⟨a, rfl, h⟩, fun ⟨_, h, h'⟩ => by cases h; exact h'⟩

/-- If what follows does not depend on the result. -/
theorem ok_bind' {α β : Type} (x : Except Err α) (k : α → Except Err β) (P : Prop) (h : ∀ a, Ok (k a) ↔ P) : Ok (x >>= k) ↔ Ok x ∧ P := by
  rw [ok_bind]
  exact ⟨fun ⟨a, ha, hk⟩ => ⟨⟨a, ha⟩, (h a).1 hk⟩, fun ⟨⟨a, ha⟩, hp⟩ => ⟨a, ha, (h a).2 hp⟩⟩

theorem bind_ok {α β : Type} {x : Except Err α} {k : α → Except Err β} {b : β} (h : x >>= k = .ok b) : ∃ a, x = .ok a ∧ k a = .ok b := by
  cases x with
  | error e => cases h
  | ok a => exact ⟨a, rfl, h⟩

theorem mapM_forall₂ {α β : Type} (f : α → Except Err β) (l : List α) (bs : List β) : l.mapM f = .ok bs ↔ List.Forall₂ (fun a b => f a = .ok b) l bs := by
  induction l generalizing bs with
  | nil => rw [List.mapM_nil, List.forall₂_nil_left_iff]; exact ⟨fun h => (Except.ok.inj h).symm, fun h => by rw [h]; rfl⟩
  | cons a l ih =>
    rw [List.mapM_cons]
    constructor
    · intro h
      obtain ⟨b, hb, h⟩ := bind_ok h
      obtain ⟨cs, hcs, h⟩ := bind_ok h
      rw [← Except.ok.inj h]
      exact .cons hb ((ih cs).1 hcs)
    · intro h
      cases h with
      | cons hb hcs => rw [hb, (ih _).2 hcs]; rfl

theorem ok_mapM {α β : Type} (f : α → Except Err β) (l : List α) : Ok (l.mapM f) ↔ ∀ a ∈ l, Ok (f a) := by
  induction l with
  | nil => rw [List.mapM_nil, ok_pure]; simp
  | cons a l ih =>
    rw [List.mapM_cons, ok_bind' _ _ (∀ a ∈ l, Ok (f a)) (fun b => by
      rw [ok_bind' _ _ True (fun cs => ok_pure _), ih, and_true])]
    simp

/-! ## Order -/

theorem strLe_iff (s r : Str) : strLe s r = true ↔ s ≤ r := by
  induction s generalizing r with
  | nil => exact iff_of_true rfl (List.nil_le _)
  | cons c s ih =>
    cases r with
    | nil => exact iff_of_false (by simp [strLe]) (by simp [← List.not_lt])
    | cons d r =>
      rw [List.cons_le_cons_iff, ← ih]
      rw [strLe.eq_def]
      dsimp only
      have hlt : ∀ x y : Char, x < y ↔ x.toNat < y.toNat := fun _ _ => Iff.rfl
      by_cases h1 : c.toNat < d.toNat
      · simp [h1, (hlt c d).2 h1]
      · rw [if_neg h1]
        by_cases h2 : d.toNat < c.toNat
        · rw [if_pos h2]
          exact iff_of_false (by simp) (by
            rintro (h | ⟨rfl, _⟩)
            · exact h1 h
            · omega)
        · rw [if_neg h2]
          have : c = d := by
            apply Char.ext
            apply UInt32.toNat_inj.1
            show c.toNat = d.toNat
            omega
          subst this
          simp

theorem lineKey_eq (l : Option (Str × Nat)) : lineKey l = placeText l := by rcases l with _ | ⟨f, n⟩ <;> rfl

theorem sorted_perm {α : Type} (line : α → Option (Str × Nat)) (l : List α) : (sortedByLine line l).Perm l := List.perm_insertionSort _ _

theorem sorted_pairwise {α : Type} (line : α → Option (Str × Nat)) (l : List α) :
    (sortedByLine line l).Pairwise (fun a b => placeText (line a) ≤ placeText (line b)) := by
  have h1 : Std.Total (fun a b : α => strLe (lineKey (line a)) (lineKey (line b)) = true) :=
    ⟨fun a b => by rw [strLe_iff, strLe_iff]; exact Std.Total.total _ _⟩
  have h2 : IsTrans α (fun a b : α => strLe (lineKey (line a)) (lineKey (line b)) = true) :=
    ⟨fun a b c => by rw [strLe_iff, strLe_iff, strLe_iff]; exact fun h h' => List.le_trans h h'⟩
  refine (List.pairwise_insertionSort (fun a b : α => strLe (lineKey (line a)) (lineKey (line b)) = true) l).imp ?_
  intro a b h
  rw [← lineKey_eq, ← lineKey_eq]
  exact (strLe_iff _ _).1 h

/-! ## Arguments -/

theorem argText_eq (s : Str) : argText s = argumentsOf s := rfl

theorem cleanargs_ok (spec : Option Str) (basic : Bool) : Ok (cleanargs spec basic) ↔ Arguments spec := by
  unfold cleanargs Arguments
  cases spec with
  | none => simp [ok_error]
  | some s =>
    dsimp only
    unfold wrapArgs publicArgs
    rw [argText_eq]
    by_cases h : argumentsOf s = []
    · rw [if_neg (by simp [h]), ok_ok]
      exact iff_of_true trivial ⟨s, rfl, .inl h⟩
    · rw [if_pos (List.length_pos_iff.2 h), ok_bind' _ _ True (fun _ => ok_pure _), and_true]
      show Ok (if [] ∈ Str.split ", ".toList (argumentsOf s) then _ else _) ↔ _
      by_cases h2 : [] ∈ Str.split ", ".toList (argumentsOf s)
      · rw [if_pos h2, ok_error, false_iff]
        rintro ⟨s', e, h'⟩
        obtain rfl := Option.some.inj e
        exact h'.elim h (fun h' => h' h2)
      · rw [if_neg h2, ok_ok]
        exact iff_of_true trivial ⟨s, rfl, .inr h2⟩

/-- What `cleanargs` gives when it ends normally. -/
theorem cleanargs_eq {spec : Option Str} {basic : Bool} {a : Str} (h : cleanargs spec basic = .ok a) : ∃ s, spec = some s ∧
    a = "(".toList ++ (if argumentsOf s = [] then none else some (shownArgs (argumentsOf s))).elim [] (fun a => if basic then "<i>".toList ++ a ++ "</i>".toList
      else "_".toList ++ a ++ "_".toList) ++ ")".toList := by
  unfold cleanargs at h
  cases spec with
  | none => cases h
  | some s =>
    refine ⟨s, rfl, ?_⟩
    dsimp only at h
    unfold wrapArgs publicArgs at h
    rw [argText_eq] at h
    by_cases he : argumentsOf s = []
    · rw [if_neg (by simp [he])] at h
      rw [← Except.ok.inj h, if_pos he]
      rfl
    · rw [if_pos (List.length_pos_iff.2 he)] at h
      obtain ⟨b, hb, h⟩ := bind_ok h
      split at hb
      · cases hb
      · rw [if_neg he]
        have e : shownArgs (argumentsOf s) = b := Except.ok.inj hb
        have h : (if basic = true then _ else _) = a := Except.ok.inj h
        rw [← h, ← e]
        cases basic
        · simp only [Bool.false_eq_true, if_false, Option.elim]
          show "(_".toList ++ _ ++ "_)".toList = _
          have e1 : "(_".toList = "(".toList ++ "_".toList := by decide
          have e2 : "_)".toList = "_".toList ++ ")".toList := by decide
          rw [e1, e2]
          simp only [List.append_assoc]
        · simp only [if_true, Option.elim]
          show "(<i>".toList ++ _ ++ "</i>)".toList = _
          have e1 : "(<i>".toList = "(".toList ++ "<i>".toList := by decide
          have e2 : "</i>)".toList = "</i>".toList ++ ")".toList := by decide
          rw [e1, e2]
          simp only [List.append_assoc]

theorem split_names (l : List Str) (hl : l ≠ []) (h : ∀ n ∈ l, n ≠ [] ∧ ',' ∉ n) : Str.split ", ".toList (Str.join ", ".toList l) = l := by
  apply Str.split_join _ (by decide) l hl
  intro p hp hi
  obtain ⟨a, b, e⟩ := hi
  have hlen := congrArg List.length e
  -- the comma of the separator is the last character at best, and then no blank follows
  have hc := (h p hp).2
  have hdrop : (", ".toList).dropLast = [','] := by decide
  rw [hdrop] at e
  have e' : a ++ ',' :: (' ' :: b) = p ++ ',' :: [] := by
    have : ", ".toList = [',', ' '] := by decide
    rw [this] at e
    simpa using e
  by_cases ha : ',' ∈ a
  · have hcount := congrArg (List.count ',') e'
    rw [List.count_append, List.count_append, List.count_eq_zero.2 hc] at hcount
    have := List.count_pos_iff.2 ha
    rw [List.count_cons_self, List.count_cons_self, List.count_nil] at hcount
    omega
  · have t1 : (a ++ ',' :: (' ' :: b)).takeWhile (fun c => c ≠ ',') = a := by
      rw [List.takeWhile_append_of_pos (by intro x hx; simp; rintro rfl; exact ha hx)]; simp
    have t2 : (p ++ ',' :: []).takeWhile (fun c => c ≠ ',') = p := by
      rw [List.takeWhile_append_of_pos (by intro x hx; simp; rintro rfl; exact hc hx)]; simp
    have : a = p := by rw [← t1, e', t2]
    subst this
    have := List.append_cancel_left e'
    simp at this

theorem classArgs_ok (W : World) (bases : List Str) (basic : Bool) (h : ∀ n ∈ bases, NameOk n) : Ok (classArgs W bases basic) := by
  unfold classArgs wrapArgs
  split
  · rename_i hlen
    rw [ok_bind' _ _ True (fun _ => ok_pure _), and_true]
    have hne : bases.map (baseText W) ≠ [] := by
      intro e
      rw [e] at hlen
      simp [Str.join] at hlen
    have hb : ∀ n ∈ bases.map (baseText W), n ≠ [] ∧ ',' ∉ n := by
      intro n hn
      obtain ⟨m, hm, rfl⟩ := List.mem_map.1 hn
      unfold baseText
      obtain ⟨h1, h2⟩ := h m hm
      split
      · refine ⟨by simp [t], ?_⟩
        have c1 : ',' ∉ t "<a href=\"#" := by decide
        have c2 : ',' ∉ t "\"><u style=\"border-bottom: .5px dashed gray;\">" := by decide
        have c3 : ',' ∉ t "</u></a>" := by decide
        simp only [List.mem_append, not_or]
        exact ⟨⟨⟨⟨c1, h2⟩, c2⟩, h2⟩, c3⟩
      · exact ⟨h1, h2⟩
    unfold publicArgs
    have := split_names _ hne hb
    rw [show t ", " = ", ".toList from rfl, this, if_neg (fun hm => (hb [] hm).1 rfl), ok_ok]
    trivial
  · rw [ok_ok]; trivial

/-! ## Documentation -/

theorem makeUrls_head (single : Bool) (caps : List (Nat × Str)) : ∃ r, makeUrls single caps = '[' :: r := by
  unfold makeUrls
  cases single <;> exact ⟨_, rfl⟩

theorem subLinks_nil (ws : Char → Bool) (single : Bool) (n : Nat) (line : Str) : subLinks ws single n 0 line = [] ↔ line = [] := by
  cases line with
  | nil => simp [subLinks]
  | cons c s =>
    refine iff_of_false ?_ (by simp)
    cases n with
    | zero => simp [subLinks]
    | succ n =>
      rw [subLinks.eq_def]
      dsimp only
      split
      · simp
      · obtain ⟨r, hr⟩ := makeUrls_head single (by assumption : Regex.St).caps
        rw [hr]; simp

/-- A line of one character that begins no link is the result of itself only. -/
theorem subLinks_single (ws : Char → Bool) (single : Bool) (n : Nat) (line : Str) (c : Char) (hc : c ≠ '[') :
    subLinks ws single n 0 line = [c] ↔ line = [c] := by
  have hm : ∀ d s, d ≠ '[' → Regex.m (linkRe ws) some ⟨d :: s, []⟩ = none := by
    intro d s hd
    cases hx : Regex.m (linkRe ws) some ⟨d :: s, []⟩ with
    | none => rfl
    | some x =>
      exfalso
      unfold linkRe at hx
      simp [Regex.m, List.isPrefixOf, Ne.symm hd] at hx
  cases line with
  | nil => simp [subLinks]
  | cons d s =>
    cases n with
    | zero => simp [subLinks]
    | succ n =>
      rw [subLinks.eq_def]
      dsimp only
      split
      · rw [List.cons.injEq, subLinks_nil, List.cons.injEq]
      · rename_i st hst
        obtain ⟨r, hr⟩ := makeUrls_head single st.caps
        rw [hr]
        refine iff_of_false (fun h => hc (List.cons.inj h).1.symm) (fun h => ?_)
        obtain ⟨rfl, -⟩ := List.cons.inj h
        rw [hm _ _ hc] at hst
        cases hst

theorem docLine_eq (lvl : Nat) (line r : Str) (h : docLine lvl line = .ok r) : r = shownLine lvl line ++ "\n".toList := by
  unfold docLine at h
  split at h
  · rw [← Except.ok.inj h]; rfl
  · rw [← Except.ok.inj h, List.replicate_succ']
    simp [shownLine, t]
  · cases h
  · rw [← Except.ok.inj h]
    simp [shownLine, t, List.prefix_iff_eq_take]
  · rename_i rest h1 h2
    rw [← Except.ok.inj h]
    have : ¬ ">>".toList <+: '>' :: rest := by
      rintro ⟨u, hu⟩
      cases hu
      exact h2 _ rfl
    have hd : ¬ ('>' :: rest).head? = some '#' := fun h => absurd (Option.some.inj h) (by decide)
    unfold shownLine
    rw [if_neg hd, if_neg this, if_pos ⟨rest, rfl⟩]
    rfl
  · rename_i h0 h1 h2 h3 h4
    rw [← Except.ok.inj h]
    unfold shownLine
    rw [if_neg, if_neg, if_neg]
    · rfl
    · rintro ⟨u, hu⟩; exact h4 _ hu.symm
    · rintro ⟨u, hu⟩; exact h3 _ hu.symm
    · intro hh
      cases line with
      | nil => cases hh
      | cons d s =>
        obtain rfl := Option.some.inj hh
        exact h1 _ rfl

theorem docLine_ok (lvl : Nat) (line : Str) : Ok (docLine lvl line) ↔ line ≠ ['>'] := by
  unfold docLine
  split <;> simp_all [ok_ok, ok_error]

theorem cleanedDoc_none (W : World) (lvl : Nat) (single : Bool) : cleanedDoc W none lvl single = .error .attributeError := rfl

theorem cleanedDoc_ok (W : World) (d : Str) (lvl : Nat) (single : Bool) : Ok (cleanedDoc W (some d) lvl single) ↔ Readable d := by
  unfold cleanedDoc
  dsimp only
  rw [ok_bind' _ _ True (fun _ => ok_pure _), and_true, ok_mapM]
  unfold Readable
  constructor
  · intro h hm
    exact (docLine_ok _ _).1 (h _ hm) ((subLinks_single W.ws single 99 _ '>' (by decide)).2 rfl)
  · intro h l hl
    refine (docLine_ok _ _).2 (fun e => h ?_)
    rw [(subLinks_single W.ws single 99 l '>' (by decide)).1 e] at hl
    exact hl

theorem forall₂_map {α β : Type} (g : α → β) (l : List α) (bs : List β) (h : List.Forall₂ (fun a b => b = g a) l bs) : bs = l.map g := by
  induction h with
  | nil => rfl
  | cons h _ ih => rw [h, ih]; rfl

theorem cleanedDoc_eq (W : World) (d : Str) (lvl : Nat) (single : Bool) (r : Str) (h : cleanedDoc W (some d) lvl single = .ok r) :
    r = shownDoc (subLinks W.ws single 99 0) lvl d := by
  unfold cleanedDoc at h
  dsimp only at h
  obtain ⟨ls, hls, h⟩ := bind_ok h
  rw [← Except.ok.inj h]
  rw [mapM_forall₂] at hls
  have := forall₂_map (fun l => shownLine lvl (subLinks W.ws single 99 0 l) ++ "\n".toList) _ _ (hls.imp (fun _ _ h => docLine_eq _ _ _ h))
  rw [this]
  rfl

theorem docOrNone_ok (W : World) (doc : Option Str) (lvl : Nat) (single : Bool) : Ok (docOrNone W doc lvl single) ↔ ∀ d, doc = some d → Readable d := by
  cases doc with
  | none => exact iff_of_true ⟨_, rfl⟩ (fun _ h => by cases h)
  | some d =>
    have h : docOrNone W (some d) lvl single = cleanedDoc W (some d) lvl single := by
      unfold docOrNone
      split
      · rename_i h
        exfalso
        unfold cleanedDoc at h
        dsimp only at h
        cases hm : List.mapM (fun line => docLine lvl (subLinks W.ws single 99 0 line)) (Str.split (t "\n") d) with
        | ok a => rw [hm] at h; cases h
        | error e =>
          rw [hm] at h
          obtain rfl : e = .attributeError := Except.error.inj h
          clear h
          generalize Str.split (t "\n") d = l at hm
          induction l with
          | nil => cases hm
          | cons a l ih =>
            rw [List.mapM_cons] at hm
            cases ha : docLine lvl (subLinks W.ws single 99 0 a) with
            | ok b =>
              rw [ha] at hm
              cases hl : List.mapM (fun line => docLine lvl (subLinks W.ws single 99 0 line)) l with
              | ok c => rw [hl] at hm; cases hm
              | error e => rw [hl] at hm; exact ih (by rw [hl]; exact hm)
            | error e =>
              rw [ha] at hm
              obtain rfl : e = .attributeError := Except.error.inj hm
              unfold docLine at ha
              split at ha <;> cases ha
      · rfl
    rw [h, cleanedDoc_ok]
    simp

theorem docOrNone_eq (W : World) (doc : Option Str) (lvl : Nat) (single : Bool) (r : Str) (h : docOrNone W doc lvl single = .ok r) :
    r = doc.elim "# Needs to be written\n\n".toList (shownDoc (subLinks W.ws single 99 0) lvl) := by
  cases doc with
  | none => exact (Except.ok.inj h).symm
  | some d =>
    have hr := (docOrNone_ok W (some d) lvl single).1 ⟨r, h⟩ d rfl
    obtain ⟨x, hx⟩ := (cleanedDoc_ok W d lvl single).2 hr
    unfold docOrNone at h
    rw [hx] at h
    rw [← Except.ok.inj h]
    exact cleanedDoc_eq W d lvl single x hx

/-! ## Rows and entries -/

theorem linkRow_ok (f : Fn) : Ok (linkRow f) ↔ Arguments f.spec := by
  unfold linkRow
  rw [ok_bind' _ _ True (fun _ => ok_pure _), and_true, cleanargs_ok]

theorem writeFunc_ok (W : World) (f : Fn) (pre : Str) : Ok (writeFunc W f pre) ↔ FnOk f := by
  unfold writeFunc FnOk
  rw [ok_bind' _ _ (∀ d, f.doc = some d → Readable d) (fun a => by
    rw [ok_bind' _ _ True (fun _ => ok_pure _), and_true, docOrNone_ok]), cleanargs_ok]

/-- The entry of a function that can be shown. -/
def entryOf (W : World) (f : Fn) : Entry where
  name := f.name
  args := if argumentsOf (f.spec.getD []) = [] then none else some (shownArgs (argumentsOf (f.spec.getD [])))
  doc := f.doc.elim "# Needs to be written\n\n".toList (shownDoc (subLinks W.ws false 99 0) 5)

theorem entryOf_about (W : World) (f : Fn) (h : FnOk f) : About (subLinks W.ws false 99 0) f (entryOf W f) := by
  obtain ⟨s, hs, -⟩ := h.1
  exact ⟨rfl, ⟨s, hs, by rw [entryOf, hs]; rfl⟩, rfl⟩

theorem linkRow_eq (W : World) (f : Fn) (r : Str) (h : linkRow f = .ok r) : r = (entryOf W f).row := by
  unfold linkRow at h
  obtain ⟨a, ha, h⟩ := bind_ok h
  obtain ⟨s, hs, ha⟩ := cleanargs_eq ha
  rw [← Except.ok.inj h, ha]
  unfold Entry.row entryOf
  rw [hs]
  simp [t, Option.getD]

theorem writeFunc_eq (W : World) (f : Fn) (pre r : Str) (h : writeFunc W f pre = .ok r) : r = makeLine ++ "\n\n".toList ++ (entryOf W f).text pre := by
  unfold writeFunc at h
  obtain ⟨a, ha, h⟩ := bind_ok h
  obtain ⟨d, hd, h⟩ := bind_ok h
  obtain ⟨s, hs, ha⟩ := cleanargs_eq ha
  rw [← Except.ok.inj h, ha, docOrNone_eq W _ _ _ _ hd]
  unfold Entry.text entryOf makeTitle anchor
  rw [hs]
  simp [t, Option.getD]

theorem tableAndEntries_ok (W : World) (header pre : Str) (fs : List Fn) : Ok (tableAndEntries W header pre fs) ↔ ∀ f ∈ fs, FnOk f := by
  unfold tableAndEntries
  rw [ok_bind' _ _ (∀ f ∈ fs, FnOk f) (fun _ => by
    rw [ok_bind' _ _ True (fun _ => ok_pure _), and_true, ok_mapM]; simp only [writeFunc_ok]), ok_mapM]
  simp only [linkRow_ok]
  exact ⟨fun h => h.2, fun h => ⟨fun f hf => (h f hf).1, h⟩⟩

theorem makeLine_prefix : "<hr style=\"".toList <+: makeLine := by
  refine ⟨makeLine.drop 11, ?_⟩
  decide +kernel

theorem rows_eq (W : World) (fs : List Fn) (rows : List Str) (h : fs.mapM linkRow = .ok rows) : rows = (fs.map (entryOf W)).map Entry.row := by
  rw [mapM_forall₂] at h
  rw [List.map_map]
  exact forall₂_map _ _ _ (h.imp (fun _ _ h => linkRow_eq W _ _ h))

theorem entries_eq (W : World) (pre : Str) (fs : List Fn) (es : List Str) (h : fs.mapM (fun f => writeFunc W f pre) = .ok es) :
    es = (fs.map (entryOf W)).map (fun e => makeLine ++ "\n\n".toList ++ e.text pre) := by
  rw [mapM_forall₂] at h
  rw [List.map_map]
  exact forall₂_map _ _ _ (h.imp (fun _ _ h => writeFunc_eq W _ _ _ h))

theorem about_all (W : World) (fs : List Fn) (h : ∀ f ∈ fs, FnOk f) : List.Forall₂ (About (subLinks W.ws false 99 0)) fs (fs.map (entryOf W)) := by
  induction fs with
  | nil => exact .nil
  | cons f fs ih => exact .cons (entryOf_about W f (h f List.mem_cons_self)) (ih (fun g hg => h g (List.mem_cons_of_mem _ hg)))

theorem tableAndEntries_eq (W : World) (header pre : Str) (fs : List Fn) (r : Str) (h : tableAndEntries W header pre fs = .ok r) :
    r = "<h3>".toList ++ header ++ "</h3>\n\n".toList ++ "<ol class=\"post-list\">\n".toList ++ Str.join "\n".toList ((fs.map (entryOf W)).map Entry.row) ++ "\n</ol>\n".toList ++
      ((fs.map (entryOf W)).map (fun e => makeLine ++ "\n\n".toList ++ e.text pre)).flatten := by
  unfold tableAndEntries at h
  obtain ⟨rows, hrows, h⟩ := bind_ok h
  obtain ⟨es, hes, h⟩ := bind_ok h
  rw [← Except.ok.inj h, rows_eq W _ _ hrows, entries_eq W _ _ _ hes]
  unfold makeTable
  rw [show t "</h3>\n\n<ol class=\"post-list\">\n" = "</h3>\n\n".toList ++ "<ol class=\"post-list\">\n".toList by decide +kernel]
  simp only [t, List.append_assoc]

/-! ## Classes, modules and pages -/

theorem shown_iff (n w : Str) (b isF : Bool) (ds : List Str) :
    ((if n.head? = some '_' ∨ b = true ∨ n = w then decide (n ∈ ds) else isF) = true) ↔
      ((n.head? ≠ some '_' ∧ b = false ∧ n ≠ w ∧ isF = true) ∨ (¬ (n.head? ≠ some '_' ∧ b = false ∧ n ≠ w) ∧ n ∈ ds)) := by
  by_cases h : n.head? = some '_' ∨ b = true ∨ n = w
  · have h' : ¬ (n.head? ≠ some '_' ∧ b = false ∧ n ≠ w) := by
      rintro ⟨h1, h2, h3⟩
      rcases h with h | h | h
      · exact h1 h
      · rw [h2] at h; cases h
      · exact h3 h
    rw [if_pos h, decide_eq_true_iff]
    exact ⟨fun hd => .inr ⟨h', hd⟩, fun hd => hd.elim (fun ⟨h1, h2, h3, _⟩ => absurd ⟨h1, h2, h3⟩ h') (fun hd => hd.2)⟩
  · have h' : n.head? ≠ some '_' ∧ b = false ∧ n ≠ w :=
      ⟨fun e => h (.inl e), by cases b with | false => rfl | true => exact absurd (.inr (.inl rfl)) h, fun e => h (.inr (.inr e))⟩
    rw [if_neg h]
    exact ⟨fun hf => .inl ⟨h'.1, h'.2.1, h'.2.2, hf⟩, fun hd => hd.elim (fun hd => hd.2.2.2) (fun hd => absurd h' hd.1)⟩

theorem mem_methods (c : Cls) (f : Fn) : f ∈ methods c ↔ ∃ m, Shown c m ∧ m.fn = f := by
  unfold methods Shown Public
  rw [List.mem_map]
  refine exists_congr (fun m => and_congr_left (fun _ => ?_))
  rw [List.mem_filter, (sorted_perm _ _).mem_iff]
  refine and_congr_right (fun _ => ?_)
  exact shown_iff _ _ _ _ _

theorem processClass_ok (W : World) (single : Bool) (c : Cls) (hb : ∀ n ∈ c.bases, NameOk n) : Ok (processClass W c single) ↔ ClsOk c := by
  have hw : Ok (writeClass W c single) ↔ Arguments c.init ∧ ∀ d, c.doc = some d → Readable d := by
    unfold writeClass
    rw [ok_bind' _ _ (Arguments c.init ∧ ∀ d, c.doc = some d → Readable d) (fun _ => by
      rw [ok_bind' _ _ (∀ d, c.doc = some d → Readable d) (fun _ => by
        rw [ok_bind' _ _ True (fun _ => ok_pure _), and_true, docOrNone_ok]), cleanargs_ok])]
    exact ⟨fun h => h.2, fun h => ⟨classArgs_ok W _ _ hb, h⟩⟩
  have hmm : (∀ f ∈ methods c, FnOk f) ↔ ∀ m, Shown c m → FnOk m.fn := by
    simp only [mem_methods]
    exact ⟨fun h m hm => h _ ⟨m, hm, rfl⟩, fun h f ⟨m, hm, e⟩ => e ▸ h m hm⟩
  unfold processClass
  rw [ok_bind' _ _ (∀ m, Shown c m → FnOk m.fn) (fun _ => by
    dsimp only
    rw [← hmm]
    split
    · rw [ok_bind' _ _ True (fun _ => ok_pure _), and_true]
      exact tableAndEntries_ok _ _ _ _
    · rename_i hl
      rw [ok_bind' _ _ True (fun _ => ok_pure _), and_true]
      have : methods c = [] := by
        cases hx : methods c with
        | nil => rfl
        | cons a l => exact absurd (by rw [hx]; exact Nat.succ_pos _) hl
      rw [this]; simp [ok_ok]), hw]
  unfold ClsOk
  exact and_assoc

theorem mem_moduleFuncs (m : Module) (f : Fn) : f ∈ moduleFuncs m ↔ f ∈ m.functions ∧ Public f.name := by
  unfold moduleFuncs Public
  rw [List.mem_filter, (sorted_perm _ _).mem_iff, decide_eq_true_iff]

theorem modulePage_ok (W : World) (single : Bool) (m : Module) : Ok (modulePage W single m) ↔ ModuleOk m := by
  unfold modulePage
  rw [ok_bind' _ _ (∀ f ∈ m.functions, Public f.name → FnOk f) (fun _ => by
    rw [ok_bind' _ _ True (fun _ => ok_pure _), and_true, tableAndEntries_ok]
    simp only [mem_moduleFuncs, and_imp])]
  unfold ModuleOk
  refine and_congr_left (fun _ => ?_)
  cases hd : m.doc with
  | none => exact iff_of_false (fun ⟨_, h⟩ => by cases h) (fun ⟨_, h, _⟩ => by cases h)
  | some d => rw [cleanedDoc_ok]; simp

theorem overviewPage_ok (W : World) (single : Bool) : Ok (overviewPage W single) ↔ ∃ d, W.doc = some d ∧ Readable d := by
  unfold overviewPage
  rw [ok_bind' _ _ True (fun _ => ok_pure _), and_true]
  cases hd : W.doc with
  | none => exact iff_of_false (fun ⟨_, h⟩ => by cases h) (fun ⟨_, h, _⟩ => by cases h)
  | some d => rw [cleanedDoc_ok]; simp

theorem functionsPage_ok (W : World) (single : Bool) (hb : ∀ c ∈ exceptions W, ∀ n ∈ c.bases, NameOk n) : Ok (functionsPage W single) ↔ ∀ f ∈ funcs W, FnOk f := by
  unfold functionsPage
  rw [ok_bind' _ _ (∀ f ∈ funcs W, FnOk f) (fun _ => by
    rw [ok_bind' _ _ (∀ f ∈ funcs W, FnOk f) (fun _ => by
      rw [ok_bind' _ _ True (fun _ => ok_pure _), and_true, ok_mapM]; simp only [writeFunc_ok])]
    refine and_iff_right ?_
    rw [ok_mapM]
    intro c hc
    unfold simpleRow
    rw [ok_bind' _ _ True (fun _ => ok_pure _), and_true]
    exact classArgs_ok W _ _ (hb c hc)), ok_mapM]
  simp only [linkRow_ok]
  exact ⟨fun h => h.2, fun h => ⟨fun f hf => (h f hf).1, h⟩⟩

theorem funcs_eq (W : World) : funcs W = (members W).filterMap publicFn := by
  unfold funcs
  refine congrArg (fun g => (members W).filterMap g) (funext fun m => ?_)
  cases m with
  | fn f => by_cases h1 : f.name.head? = some '_' <;> simp [Model.DocsGen.hidden, publicFn, Member.name, h1]
  | _ => simp [Model.DocsGen.hidden, publicFn]

theorem classes_eq (W : World) : classes W = (members W).filterMap (publicCls false) := by
  unfold classes
  refine congrArg (fun g => (members W).filterMap g) (funext fun m => ?_)
  cases m with
  | cls c => by_cases h1 : c.name.head? = some '_' <;> cases h2 : c.isException <;> simp [Model.DocsGen.hidden, publicCls, Member.name, h1, h2]
  | _ => simp [Model.DocsGen.hidden, publicCls]

theorem exceptions_eq (W : World) : exceptions W = (members W).filterMap (publicCls true) := by
  unfold exceptions
  refine congrArg (fun g => (members W).filterMap g) (funext fun m => ?_)
  cases m with
  | cls c => by_cases h1 : c.name.head? = some '_' <;> cases h2 : c.isException <;> simp [Model.DocsGen.hidden, publicCls, Member.name, h1, h2]
  | _ => simp [Model.DocsGen.hidden, publicCls]

theorem members_perm (W : World) : (members W).Perm W.members := sorted_perm _ _

theorem mem_funcs (W : World) (f : Fn) : f ∈ funcs W ↔ f ∈ W.members.filterMap publicFn := by
  rw [funcs_eq]; exact ((members_perm W).filterMap _).mem_iff
theorem mem_classes (W : World) (c : Cls) : c ∈ classes W ↔ c ∈ W.members.filterMap (publicCls false) := by
  rw [classes_eq]; exact ((members_perm W).filterMap _).mem_iff
theorem mem_exceptions (W : World) (c : Cls) : c ∈ exceptions W ↔ c ∈ W.members.filterMap (publicCls true) := by
  rw [exceptions_eq]; exact ((members_perm W).filterMap _).mem_iff

/-! ## Order of lines -/

theorem foldl_digits_lt (s r : Str) (a b : Nat) (hl : s.length = r.length) (hs : ∀ c ∈ s, isDig c = true) (hab : a < b) :
    s.foldl (fun a c => 10 * a + digitVal c) a < r.foldl (fun a c => 10 * a + digitVal c) b := by
  induction s generalizing r a b with
  | nil => rw [List.length_nil] at hl; rw [List.length_eq_zero_iff.1 hl.symm]; exact hab
  | cons c s ih =>
    cases r with
    | nil => cases hl
    | cons d r =>
      refine ih r _ _ (Nat.succ.inj hl) (fun c hc => hs c (List.mem_cons_of_mem _ hc)) ?_
      have hc := hs c List.mem_cons_self
      have : digitVal c ≤ 9 := by
        unfold isDig at hc
        have h9 := (decide_eq_true_iff.1 hc).2
        have : c.toNat ≤ 57 := h9
        unfold digitVal
        omega
      dsimp only
      omega

theorem foldl_digits_le (s r : Str) (a : Nat) (hl : s.length = r.length) (hs : ∀ c ∈ s, isDig c = true) (hr : ∀ c ∈ r, isDig c = true) (h : s ≤ r) :
    s.foldl (fun a c => 10 * a + digitVal c) a ≤ r.foldl (fun a c => 10 * a + digitVal c) a := by
  induction s generalizing r a with
  | nil => rw [List.length_nil] at hl; rw [List.length_eq_zero_iff.1 hl.symm]
  | cons c s ih =>
    cases r with
    | nil => cases hl
    | cons d r =>
      have hs' := fun c hc => hs c (List.mem_cons_of_mem _ hc)
      have hr' := fun c hc => hr c (List.mem_cons_of_mem _ hc)
      rcases List.cons_le_cons_iff.1 h with h | ⟨rfl, h'⟩
      · have hlt : c.toNat < d.toNat := h
        have hc : 48 ≤ c.toNat := (decide_eq_true_iff.1 (hs c List.mem_cons_self)).1
        exact Nat.le_of_lt (foldl_digits_lt s r _ _ (Nat.succ.inj hl) hs' (by dsimp only; unfold digitVal; omega))
      · exact ih r _ (Nat.succ.inj hl) hs' hr' h'

theorem append_le (p s r : Str) : p ++ s ≤ p ++ r ↔ s ≤ r := by
  induction p with
  | nil => rfl
  | cons c p ih =>
    rw [List.cons_append, List.cons_append, List.cons_le_cons_iff, ih]
    exact ⟨fun h => h.elim (fun h => absurd h (Nat.lt_irrefl c.toNat)) (fun h => h.2), fun h => .inr ⟨rfl, h⟩⟩

theorem placeText_le (file : Str) (n k : Nat) (hl : (showNat n).length = (showNat k).length) (h : placeText (some (file, n)) ≤ placeText (some (file, k))) : n ≤ k := by
  have := foldl_digits_le _ _ 0 hl (showNat_digits n) (showNat_digits k) ((append_le file _ _).1 h)
  have h1 := readNat_showNat n
  have h2 := readNat_showNat k
  unfold readNat at h1 h2
  rw [h1, h2] at this
  exact this

/-! ## Links -/

open Verif.Py.Regex in
/-- A greedy repetition takes `w` if everything longer fails. -/
theorem rep_backtrack (p : Char → Bool) (lo : Nat) (k : St → Option St) (w r : Str) (caps : List (Nat × Str)) (x : St) (hw : ∀ c ∈ w, p c = true) (hlo : lo ≤ w.length)
    (hk : k ⟨r, caps⟩ = some x) (hlong : ∀ v r', r = v ++ r' → v ≠ [] → (∀ c ∈ v, p c = true) → k ⟨r', caps⟩ = none) :
    m (.rep p lo none false) k ⟨w ++ r, caps⟩ = some x := by
  have gen : ∀ (f : Nat → Option St) (M j : Nat), lo ≤ j → j ≤ M → (∀ i, j < i → i ≤ M → f i = none) → f j = some x →
      (((List.range (M + 1)).filter (fun i => lo ≤ i)).reverse).findSome? f = some x := by
    intro f M j hj hM hn hf
    induction M with
    | zero =>
      obtain rfl : j = 0 := by omega
      obtain rfl : lo = 0 := by omega
      simp [hf]
    | succ M ih =>
      rw [List.range_succ, List.filter_append, List.filter_cons_of_pos (by simp; omega), List.filter_nil, List.reverse_append]
      simp only [List.reverse_cons, List.reverse_nil, List.nil_append, List.cons_append, List.findSome?_cons]
      by_cases e : j = M + 1
      · rw [← e, hf]
      · rw [hn (M + 1) (by omega) (Nat.le_refl _)]
        exact ih (by omega) (fun i h1 h2 => hn i h1 (by omega))
  rw [m, tries]
  dsimp only
  have hmost : most p none (w ++ r) = w.length + (r.takeWhile p).length := by
    unfold most
    dsimp only
    rw [List.takeWhile_append_of_pos hw, List.length_append]
  rw [if_neg (by simp), hmost]
  refine gen _ _ w.length hlo (by omega) ?_ (by simpa using hk)
  intro i h1 h2
  have e : (w ++ r).drop i = r.drop (i - w.length) := by rw [List.drop_append]; simp [List.drop_eq_nil_of_le (Nat.le_of_lt h1)]
  rw [e]
  have hlen := (List.takeWhile_prefix p (l := r)).length_le
  refine hlong (r.take (i - w.length)) _ (List.take_append_drop _ _).symm ?_ (takeWhile_prefix p r _ (by omega))
  intro h
  have := congrArg List.length h
  rw [List.length_take, List.length_nil] at this
  omega

theorem free_run {ws : Char → Bool} {post v r : Str} (hf : Free ws post) (e : post = v ++ r) (hv : ∀ c ∈ v, ws c = false) : ∀ c ∈ v, c ≠ ']' ∧ c ≠ ')' := by
  intro c hc
  refine hf c ?_
  rw [e, List.takeWhile_append_of_pos (by intro d hd; simp [hv d hd])]
  exact List.mem_append_left _ hc

/-- Splitting a run inside `u ++ post`. -/
theorem append_run {u post v r : Str} (e : u ++ post = v ++ r) : (∃ u', u = v ++ u' ∧ r = u' ++ post) ∨ (∃ v', v = u ++ v' ∧ post = v' ++ r) := by
  rcases List.append_eq_append_iff.1 e with ⟨a, h1, h2⟩ | ⟨a, h1, h2⟩
  · exact .inr ⟨a, h1, h2⟩
  · exact .inl ⟨a, h1, h2⟩

open Verif.Py.Regex in
/-- The match at a link. -/
theorem match_link (ws : Char → Bool) (hws : Blanks ws) (l : Link) (hl : LinkOk ws l) (post : Str) (hf : Free ws post) :
    m (linkRe ws) some ⟨l.written ++ post, []⟩ = some ⟨post, [(3, l.name), (2, l.owner), (1, l.shown)]⟩ := by
  obtain ⟨⟨s0, s1⟩, ⟨o0, o1, o2⟩, ⟨n0, n1, n2, n3⟩⟩ := hl
  have hb := fun c hc => hws c hc
  have litNil : ∀ (t' : Str) (k : St → Option St) (r : Str) caps, m (.lit t') k ⟨t' ++ r, caps⟩ = k ⟨r, caps⟩ := by
    intro t' k r caps
    rw [m, if_pos (List.isPrefixOf_iff_prefix.2 ⟨r, rfl⟩)]
    simp
  have litFail : ∀ (c : Char) (t' : Str) (k : St → Option St) (r : Str) caps, (∀ r', r ≠ c :: r') → m (.lit (c :: t')) k ⟨r, caps⟩ = none := by
    intro c t' k r caps h
    rw [m, if_neg]
    intro hp
    obtain ⟨u, hu⟩ := List.isPrefixOf_iff_prefix.1 hp
    exact h (t' ++ u) hu.symm
  have e1 : l.written ++ post = ['['] ++ (l.shown ++ ([']', '(', '#'] ++ (l.owner ++ (['.'] ++ (l.name ++ ([')'] ++ post)))))) := by
    unfold Link.written
    simp [t]
  -- a run reaching a ')' stays in front of `post`
  have g3fail : ∀ (caps : List (Nat × Str)) (q r : Str), post = q ++ r → (∀ c ∈ q, ws c = false) →
      m (.grp 3 (.rep (fun c => !ws c) 1 none false) ⬝ .lit [')']) some ⟨r, caps⟩ = none := by
    intro caps q r e hq
    cases hx : m (.grp 3 (.rep (fun c => !ws c) 1 none false) ⬝ .lit [')']) some ⟨r, caps⟩ with
    | none => rfl
    | some x =>
      exfalso
      obtain ⟨s', h, -⟩ := m_sound _ _ _ _ hx
      obtain ⟨a, ⟨b, w', ⟨w, hw, hwp, -⟩, -, rfl⟩, ⟨h2, -⟩⟩ := h
      have hw : r = w ++ b.rest := hw
      have h2 : b.rest = [')'] ++ s'.rest := h2
      have hrun := free_run hf (v := q ++ w ++ [')']) (r := s'.rest) (by rw [e, hw, h2]; simp) (by
        intro c hc
        rcases List.mem_append.1 hc with hc | hc
        · rcases List.mem_append.1 hc with hc | hc
          · exact hq c hc
          · simpa using hwp c hc
        · rw [List.mem_singleton.1 hc]; exact hb _ (by decide))
      exact (hrun ')' (by simp)).2 rfl
  rw [e1]
  unfold linkRe
  rw [show t "](#" = [']', '(', '#'] from by decide]
  rw [m, litNil, m, m]
  refine rep_backtrack _ _ _ l.shown _ _ _ (by intro c hc; simp [s1 c hc]) (List.length_pos_iff.2 s0) ?_ ?_
  · dsimp only
    rw [m, litNil, m, m]
    refine rep_backtrack _ _ _ l.owner _ _ _ (by intro c hc; simp [o1 c hc]) (List.length_pos_iff.2 o0) ?_ ?_
    · dsimp only
      rw [m, litNil, m, m]
      refine rep_backtrack _ _ _ l.name _ _ _ (by intro c hc; simp [n1 c hc]) (List.length_pos_iff.2 n0) ?_ ?_
      · dsimp only
        rw [litNil]
        simp
      · intro v r' e hv hvp
        dsimp only
        refine litFail _ _ _ _ _ ?_
        rintro r'' rfl
        cases v with
        | nil => exact hv rfl
        | cons d v =>
          have e := (List.cons.inj e).2
          have e : post = (v ++ [')']) ++ r'' := by rw [List.append_assoc]; exact e
          have := free_run hf e (by
            intro c hc
            rcases List.mem_append.1 hc with hc | hc
            · simpa using hvp c (List.mem_cons_of_mem _ hc)
            · rw [List.mem_singleton.1 hc]; exact hb _ (by decide))
          exact (this ')' (by simp)).2 rfl
    · intro v r' e hv hvp
      dsimp only
      by_cases hr : ∃ r'', r' = '.' :: r''
      · obtain ⟨r'', rfl⟩ := hr
        rw [m, show '.' :: r'' = ['.'] ++ r'' from rfl, litNil]
        cases v with
        | nil => exact absurd rfl hv
        | cons d v =>
          have e := (List.cons.inj e).2
          have e : (l.name ++ [')']) ++ post = v ++ '.' :: r'' := by rw [List.append_assoc]; exact e
          rcases append_run e with ⟨u', h1, h2⟩ | ⟨v', h1, h2⟩
          · cases u' with
            | nil =>
              refine g3fail _ ['.'] r'' (by rw [List.nil_append] at h2; exact h2.symm) ?_
              intro c hc
              rw [List.mem_singleton.1 hc]; exact hb _ (by decide)
            | cons a u' =>
              exfalso
              obtain ⟨rfl, -⟩ := List.cons.inj h2
              have : '.' ∈ l.name ++ [')'] := by rw [h1]; simp
              rcases List.mem_append.1 this with h | h
              · exact n3 h
              · revert h; decide
          · refine g3fail _ (v' ++ ['.']) r'' (by rw [h2]; simp) ?_
            intro c hc
            rcases List.mem_append.1 hc with hc | hc
            · have : c ∈ d :: v := List.mem_cons_of_mem _ (by rw [h1]; exact List.mem_append_right _ hc)
              simpa using hvp c this
            · rw [List.mem_singleton.1 hc]; exact hb _ (by decide)
      · rw [m]
        exact litFail _ _ _ _ _ (fun r'' h => hr ⟨r'', h⟩)
  · intro v r' e hv hvp
    dsimp only
    rw [m]
    refine litFail _ _ _ _ _ ?_
    rintro r'' rfl
    cases v with
    | nil => exact hv rfl
    | cons d v =>
      have e := (List.cons.inj e).2
      have e : (['(', '#'] ++ l.owner ++ ['.'] ++ l.name ++ [')']) ++ post = v ++ ']' :: r'' := by
        have e : ['(', '#'] ++ (l.owner ++ (['.'] ++ (l.name ++ ([')'] ++ post)))) = v ++ ']' :: r'' := e
        rw [← e]; simp
      rcases append_run e with ⟨u', h1, h2⟩ | ⟨v', h1, h2⟩
      · cases u' with
        | nil =>
          have := free_run hf (v := [']']) (r := r'') h2.symm (by
            intro c hc
            rw [List.mem_singleton.1 hc]; exact hb _ (by decide))
          exact (this ']' (by simp)).1 rfl
        | cons a u' =>
          obtain ⟨rfl, -⟩ := List.cons.inj h2
          have : ']' ∈ ['(', '#'] ++ l.owner ++ ['.'] ++ l.name ++ [')'] := by rw [h1]; simp
          simp [o2, n2] at this
      · have := free_run hf (v := v' ++ [']']) (r := r'') (by rw [h2]; simp) (by
          intro c hc
          rcases List.mem_append.1 hc with hc | hc
          · have : c ∈ d :: v := List.mem_cons_of_mem _ (by rw [h1]; exact List.mem_append_right _ hc)
            simpa using hvp c this
          · rw [List.mem_singleton.1 hc]; exact hb _ (by decide))
        exact (this ']' (by simp)).1 rfl

theorem match_other (ws : Char → Bool) (d : Char) (s : Str) (hd : d ≠ '[') : Regex.m (linkRe ws) some ⟨d :: s, []⟩ = none := by
  unfold linkRe
  simp [Regex.m, List.isPrefixOf, Ne.symm hd]

theorem subLinks_skip (ws : Char → Bool) (single : Bool) (n : Nat) (w s : Str) : subLinks ws single n w.length (w ++ s) = subLinks ws single n 0 s := by
  induction w with
  | nil => rfl
  | cons c w ih => rw [List.length_cons, List.cons_append, subLinks.eq_def]; exact ih

theorem subLinks_plain (ws : Char → Bool) (single : Bool) (n : Nat) (p s : Str) (hp : '[' ∉ p) : subLinks ws single n 0 (p ++ s) = p ++ subLinks ws single n 0 s := by
  induction p with
  | nil => rfl
  | cons c p ih =>
    cases n with
    | zero => cases s <;> simp [subLinks]
    | succ n =>
      rw [List.cons_append, subLinks.eq_def]
      dsimp only
      rw [match_other ws c _ (fun e => hp (by rw [e]; exact List.mem_cons_self))]
      dsimp only
      rw [ih (fun h => hp (List.mem_cons_of_mem _ h))]
      rfl

/-- The link as it is written in the page. -/
def target (single : Bool) (l : Link) : Str := if single then l.inFile else l.onSite

theorem subLinks_link (ws : Char → Bool) (hws : Blanks ws) (single : Bool) (n : Nat) (l : Link) (hl : LinkOk ws l) (post : Str) (hf : Free ws post) :
    subLinks ws single (n + 1) 0 (l.written ++ post) = target single l ++ subLinks ws single n 0 post := by
  have hm := match_link ws hws l hl post hf
  obtain ⟨w, hw⟩ : ∃ w, l.written = '[' :: w := ⟨_, rfl⟩
  rw [hw, List.cons_append] at hm ⊢
  rw [subLinks.eq_def]
  dsimp only
  rw [hm]
  dsimp only
  rw [List.length_append, Nat.add_sub_cancel, subLinks_skip]
  cases single <;> rfl

theorem subLinks_line (ws : Char → Bool) (hws : Blanks ws) (single : Bool) (ps : List (Str × Link)) (last : Str) (n : Nat) (hn : ps.length ≤ n) (h : Apart ws ps last) :
    subLinks ws single n 0 (writeLine Link.written ps last) = writeLine (target single) ps last := by
  induction ps generalizing n with
  | nil =>
    have := subLinks_plain ws single n last [] h
    rw [List.append_nil] at this
    rw [writeLine, writeLine, this]
    cases n <;> simp [subLinks]
  | cons a ps ih =>
    obtain ⟨p, l⟩ := a
    obtain ⟨h1, h2, h3, h4⟩ := h
    cases n with
    | zero => exact absurd hn (Nat.not_succ_le_zero _)
    | succ n =>
      rw [writeLine, writeLine, List.append_assoc, subLinks_plain ws single _ p _ h1, subLinks_link ws hws single n l h2 _ h3, ih n (Nat.le_of_succ_le_succ hn) h4,
        List.append_assoc]

end Verif.Lemmas.DocsGen
