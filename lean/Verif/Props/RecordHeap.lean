import Verif.Model.RecordHeap
import Verif.Model.Wos
import Verif.Props.TagNames

/-! # C78: what a copy of a record shares with it -/
set_option autoImplicit false
set_option linter.unusedSimpArgs false
namespace Verif.Props.RecordHeap
open Verif.Py Verif.Model.RecordHeap

variable {V : Type}

/-! ## The words of the statements -/

/-- The classes: other names go both ways, and a tag with another name has no special function. -/
structure Good (C : Cls V) : Prop where
  invol : ∀ k b, C.alt k = some b → C.alt b = some k
  special : ∀ k b, C.alt k = some b → C.special k = none

/-- Fields whose lists are in memory, no two of them the two names of a tag. -/
structure GoodFields (C : Cls V) (F : Dict Str Nat) (h : Heap) : Prop where
  inMem : ∀ p ∈ F, p.2 < h.length
  noClash : ∀ k b, C.alt k = some b → b ≠ k → F.get? k ≠ none → F.get? b = none

/-- The two keys are one tag. -/
def Twin (C : Cls V) (k k' : Str) : Prop := k' = k ∨ C.alt k = some k'

/-- The value of the tag is not the raw list itself. -/
def Private (C : Cls V) (F : Dict Str Nat) (k : Str) : Prop :=
  ∀ t, (t = k ∨ C.alt k = some t) → F.get? t ≠ none → C.proc t ≠ .same

/-- The operation changes a list that the tag `k` of record `i` gave. -/
def Changes (C : Cls V) (i : Nat) (k : Str) (op : Op) : Prop := ∃ k' l, op = .change i k' l ∧ Twin C k' k

/-- One record nothing has been read from. -/
def fresh (h : Heap) (F : Dict Str Nat) : World V := ⟨h, [⟨F, []⟩]⟩

/-! ## Proof -/

/-- What `R[k]` is for fields `F` in memory `h`. -/
def expected (C : Cls V) (F : Dict Str Nat) (h : Heap) (k : Str) : Option (Seen V) :=
  match resolve C F k with
  | some p => match C.proc p.1 with
    | .same => some (.list (h.getD p.2 []))
    | .made f => f (h.getD p.2 [])
  | none => C.special k

/-- A list of the memo is new, or it is a raw list of a tag that is not private. -/
def Entry (C : Cls V) (F : Dict Str Nat) (n0 len : Nat) (k : Str) (r : Ref V) : Prop :=
  ∀ a, r = .obj a → (n0 ≤ a ∧ a < len) ∨ (a < n0 ∧ ¬ Private C F k)

structure Inv (C : Cls V) (F : Dict Str Nat) (h0 : Heap) (T : Nat → Str → Prop) (w : World V) : Prop where
  len : h0.length ≤ w.heap.length
  old : ∀ a, a < h0.length → w.heap.getD a [] = h0.getD a []
  fields : ∀ (i : Nat) R, w.recs[i]? = some R → R.fields = F
  cls : ∀ (i : Nat) R k r, w.recs[i]? = some R → R.memo.get? k = some r → Entry C F h0.length w.heap.length k r
  val : ∀ (i : Nat) R k r, w.recs[i]? = some R → R.memo.get? k = some r → ¬ T i k → expected C F h0 k = some (deref w.heap r)
  own : ∀ (i j : Nat) R S k k' a, w.recs[i]? = some R → w.recs[j]? = some S → R.memo.get? k = some (.obj a) →
    S.memo.get? k' = some (.obj a) → h0.length ≤ a → i = j ∧ Twin C k k'

theorem resolve_some {C : Cls V} {F : Dict Str Nat} {k : Str} {p : Str × Nat} (h : resolve C F k = some p) :
    F.get? p.1 = some p.2 ∧ (p.1 = k ∨ C.alt k = some p.1) := by
  unfold resolve at h
  cases hk : F.get? k with
  | some a => rw [hk] at h; cases h; exact ⟨hk, .inl rfl⟩
  | none =>
    rw [hk] at h
    cases hb : C.alt k with
    | none => rw [hb] at h; cases h
    | some b =>
      rw [hb] at h
      cases ha : F.get? b with
      | none => simp [ha] at h
      | some a => simp [ha] at h; subst h; exact ⟨ha, .inr rfl⟩

theorem resolve_key {C : Cls V} {F : Dict Str Nat} {t : Str} {a : Nat} (h : F.get? t = some a) : resolve C F t = some (t, a) := by
  unfold resolve; rw [h]

theorem resolve_twin {C : Cls V} (hC : Good C) {F : Dict Str Nat} {h0 : Heap} (hF : GoodFields C F h0) {t : Str} {a : Nat}
    (h : F.get? t = some a) {k : Str} (hk : Twin C t k) : resolve C F k = some (t, a) := by
  rcases hk with rfl | hk
  · exact resolve_key h
  · by_cases hkt : k = t
    · subst hkt; exact resolve_key h
    · have := hF.noClash t k hk hkt (by simp [h])
      unfold resolve
      rw [this]; dsimp only; rw [hC.invol t k hk]; simp [h]

theorem store_get (C : Cls V) (R : Rec V) (key : Str) (r : Ref V) (j : Str) (r' : Ref V) (h : (store C R key r).memo.get? j = some r') :
    (Twin C key j ∧ r' = r) ∨ R.memo.get? j = some r' := by
  unfold store at h
  cases hb : C.alt key with
  | none =>
    rw [hb] at h
    simp only [Dict.get?_set] at h
    split at h
    · rename_i e; exact .inl ⟨.inl e.symm, (Option.some.inj h).symm⟩
    · exact .inr h
  | some b =>
    rw [hb] at h
    simp only [Dict.get?_set] at h
    split at h
    · rename_i e; subst e; exact .inl ⟨.inr hb, (Option.some.inj h).symm⟩
    · split at h
      · rename_i e; exact .inl ⟨.inl e.symm, (Option.some.inj h).symm⟩
      · exact .inr h

theorem store_twin (C : Cls V) (R : Rec V) (key : Str) (r : Ref V) (j : Str) (h : Twin C key j) : (store C R key r).memo.get? j = some r := by
  unfold store
  rcases h with rfl | h
  · cases hb : C.alt j with
    | none => simp
    | some b => simp only [Dict.get?_set]; split <;> simp
  · rw [h]; simp

theorem store_fields (C : Cls V) (R : Rec V) (key : Str) (r : Ref V) : (store C R key r).fields = R.fields := by
  unfold store; cases C.alt key <;> rfl

/-- A value that has just been computed. -/
def NewVal (C : Cls V) (F : Dict Str Nat) (n0 : Nat) (h : Heap) (key : Str) (r : Ref V) (h' : Heap) : Prop :=
  (h' = h ∧ ∀ a, r = .obj a → a < n0 ∧ ∀ k, Twin C key k → ¬ Private C F k) ∨ (∃ l, h' = h ++ [l] ∧ r = .obj h.length)

theorem getD_append (h : Heap) (l : List Str) (a : Nat) (ha : a < h.length) : (h ++ [l]).getD a [] = h.getD a [] := by
  simp [List.getD, List.getElem?_append_left ha]

theorem twin_symm {C : Cls V} (hC : Good C) {k j : Str} (h : Twin C k j) : Twin C j k := by
  rcases h with rfl | h
  · exact .inl rfl
  · exact .inr (hC.invol _ _ h)

theorem twin_trans {C : Cls V} (hC : Good C) {k j m : Str} (h : Twin C k j) (h' : Twin C j m) : Twin C k m := by
  rcases h with rfl | h
  · exact h'
  · rcases h' with rfl | h'
    · exact .inr h
    · rw [hC.invol _ _ h] at h'; exact .inl (Option.some.inj h').symm

theorem deref_mono {h h' : Heap} {r : Ref V} (hle : ∀ a, a < h.length → h'.getD a [] = h.getD a []) (hr : ∀ a, r = .obj a → a < h.length) :
    deref h' r = deref h r := by
  cases r with
  | obj a => simp only [deref]; rw [hle a (hr a rfl)]
  | val v => rfl

theorem entry_lt {C : Cls V} {F : Dict Str Nat} {n0 len : Nat} {k : Str} {r : Ref V} (h : Entry C F n0 len k r) (hl : n0 ≤ len) :
    ∀ a, r = .obj a → a < len := by
  intro a ha
  rcases h a ha with h | h
  · exact h.2
  · omega

theorem finish_step {C : Cls V} (hC : Good C) {F : Dict Str Nat} {h0 : Heap} {T : Nat → Str → Prop} {w : World V} (hI : Inv C F h0 T w)
    {i : Nat} {R : Rec V} (hR : w.recs[i]? = some R) (key : Str) (r : Ref V) (h' : Heap)
    (hval : ∀ k, Twin C key k → expected C F h0 k = some (deref h' r)) (hnew : NewVal C F h0.length w.heap key r h') :
    Inv C F h0 T ⟨h', w.recs.set i (store C R key r)⟩ := by
  have hile : i < w.recs.length := by
    by_contra hc
    rw [List.getElem?_eq_none (by omega)] at hR; cases hR
  have hlen : w.heap.length ≤ h'.length := by
    rcases hnew with ⟨e, _⟩ | ⟨l, e, _⟩ <;> subst e <;> simp
  have hold : ∀ a, a < w.heap.length → h'.getD a [] = w.heap.getD a [] := by
    intro a ha
    rcases hnew with ⟨e, _⟩ | ⟨l, e, _⟩ <;> subst e
    · rfl
    · exact getD_append _ _ _ ha
  have hget : ∀ (j : Nat) S, (w.recs.set i (store C R key r))[j]? = some S →
      (j = i ∧ S = store C R key r) ∨ (j ≠ i ∧ w.recs[j]? = some S) := by
    intro j S hS
    by_cases hj : j = i
    · subst hj; rw [List.getElem?_set_self hile] at hS; exact .inl ⟨rfl, (Option.some.inj hS).symm⟩
    · rw [List.getElem?_set_ne (Ne.symm hj)] at hS; exact .inr ⟨hj, hS⟩
  -- a memo entry of the new world is the new value or an old entry
  have hmem : ∀ (j : Nat) S k r', (w.recs.set i (store C R key r))[j]? = some S → S.memo.get? k = some r' →
      (j = i ∧ Twin C key k ∧ r' = r) ∨ ∃ S0, w.recs[j]? = some S0 ∧ S0.memo.get? k = some r' := by
    intro j S k r' hS hk
    rcases hget j S hS with ⟨e, eS⟩ | ⟨_, hS⟩
    · subst e; subst eS
      rcases store_get C R key r k r' hk with ⟨h1, h2⟩ | h1
      · exact .inl ⟨rfl, h1, h2⟩
      · exact .inr ⟨R, hR, h1⟩
    · exact .inr ⟨S, hS, hk⟩
  refine ⟨le_trans hI.len hlen, ?_, ?_, ?_, ?_, ?_⟩
  · intro a ha; rw [hold a (lt_of_lt_of_le ha hI.len)]; exact hI.old a ha
  · intro j S hS
    rcases hget j S hS with ⟨e, eS⟩ | ⟨_, hS⟩
    · subst eS; rw [store_fields]; exact hI.fields i R hR
    · exact hI.fields j S hS
  · intro j S k r' hS hk a ha
    rcases hmem j S k r' hS hk with ⟨_, ht, e⟩ | ⟨S0, hS0, hk0⟩
    · subst e
      rcases hnew with ⟨e, hr⟩ | ⟨l, e, hr⟩
      · exact .inr ⟨(hr a ha).1, (hr a ha).2 k ht⟩
      · rw [hr] at ha; cases ha; subst e; left; exact ⟨hI.len, by simp⟩
    · rcases hI.cls j S0 k r' hS0 hk0 a ha with h | h
      · exact .inl ⟨h.1, lt_of_lt_of_le h.2 hlen⟩
      · exact .inr h
  · intro j S k r' hS hk hT
    rcases hmem j S k r' hS hk with ⟨_, ht, e⟩ | ⟨S0, hS0, hk0⟩
    · subst e; exact hval k ht
    · rw [hI.val j S0 k r' hS0 hk0 hT]
      dsimp only
      rw [deref_mono hold (entry_lt (hI.cls j S0 k r' hS0 hk0) hI.len)]
  · intro j m S U k k' a hS hU hk hk' ha
    rcases hmem j S k _ hS hk with ⟨e1, ht, e⟩ | ⟨S0, hS0, hk0⟩
    · rcases hmem m U k' _ hU hk' with ⟨e2, ht', e'⟩ | ⟨U0, hU0, hk0'⟩
      · exact ⟨e1.trans e2.symm, twin_trans hC (twin_symm hC ht) ht'⟩
      · exfalso
        have h1 := entry_lt (hI.cls m U0 k' _ hU0 hk0') hI.len a rfl
        rcases hnew with ⟨_, hr⟩ | ⟨l, _, hr⟩
        · have := (hr a e.symm).1; omega
        · rw [hr] at e; cases e; omega
    · rcases hmem m U k' _ hU hk' with ⟨e2, ht', e'⟩ | ⟨U0, hU0, hk0'⟩
      · exfalso
        have h1 := entry_lt (hI.cls j S0 k _ hS0 hk0) hI.len a rfl
        rcases hnew with ⟨_, hr⟩ | ⟨l, _, hr⟩
        · have := (hr a e'.symm).1; omega
        · rw [hr] at e'; cases e'; omega
      · exact hI.own j m S0 U0 k k' a hS0 hU0 hk0 hk0' ha

theorem set_self {α : Type} (l : List α) (i : Nat) (x : α) (h : l[i]? = some x) : l.set i x = l := by
  apply List.ext_getElem?
  intro j
  by_cases hj : j = i
  · subst hj
    rw [h]
    have : j < l.length := by
      by_contra hc; rw [List.getElem?_eq_none (by omega)] at h; cases h
    rw [List.getElem?_set_self this]
  · rw [List.getElem?_set_ne (Ne.symm hj)]

theorem make_new (C : Cls V) (F : Dict Str Nat) (n0 : Nat) (h : Heap) (key : Str) (s : Seen V) :
    NewVal C F n0 h key (make h s).1 (make h s).2 ∧ deref (make h s).2 (make h s).1 = s := by
  cases s with
  | list l => exact ⟨.inr ⟨l, rfl, rfl⟩, by simp [make, deref]⟩
  | atom v => exact ⟨.inl ⟨rfl, by intro a ha; cases ha⟩, rfl⟩

theorem read_step {C : Cls V} (hC : Good C) {F : Dict Str Nat} {h0 : Heap} (hF : GoodFields C F h0) {T : Nat → Str → Prop} {w : World V}
    (hI : Inv C F h0 T w) {i : Nat} {R : Rec V} (hR : w.recs[i]? = some R) (k : Str) :
    Inv C F h0 T ⟨(read C w.heap R k).2.1, w.recs.set i (read C w.heap R k).2.2⟩ ∧
    (¬ T i k → look C w.heap R k = expected C F h0 k) ∧
    (∀ r, (read C w.heap R k).1 = some r → (read C w.heap R k).2.2.memo.get? k = some r) := by
  unfold look Model.RecordHeap.read
  cases hm : R.memo.get? k with
  | some r =>
    dsimp only
    rw [set_self _ _ _ hR]
    refine ⟨hI, ?_, ?_⟩
    · intro hT; rw [hI.val i R k r hR hm hT]; rfl
    · intro r' hr'; cases hr'; exact hm
  | none =>
    dsimp only
    rw [hI.fields i R hR]
    cases hres : resolve C F k with
    | some p =>
      obtain ⟨hp, htw⟩ := resolve_some hres
      have htwin : Twin C p.1 k := by
        rcases htw with h | h
        · exact .inl h.symm
        · exact .inr (hC.invol _ _ h)
      have ha : w.heap.getD p.2 [] = h0.getD p.2 [] := hI.old _ (hF.inMem _ (Dict.mem_of_get? hp))
      have hexp : ∀ j, Twin C p.1 j → expected C F h0 j =
          match C.proc p.1 with | .same => some (.list (h0.getD p.2 [])) | .made f => f (h0.getD p.2 []) := by
        intro j hj; unfold expected; rw [resolve_twin hC hF hp hj]
      dsimp only
      unfold process
      rw [hexp k htwin]
      cases hproc : C.proc p.1 with
      | same =>
        dsimp only [finish]
        refine ⟨?_, ?_, ?_⟩
        · apply finish_step hC hI hR p.1
          · intro j hj; rw [hexp j hj, hproc]; simp only [deref]; rw [ha]
          · refine .inl ⟨rfl, ?_⟩
            intro a e
            cases e
            refine ⟨hF.inMem _ (Dict.mem_of_get? hp), ?_⟩
            intro j hj hpriv
            refine hpriv p.1 ?_ (by simp [hp]) hproc
            rcases twin_symm hC hj with e | e
            · exact .inl e
            · exact .inr e
        · intro _; simp only [Option.map_some, deref, ha]
        · intro r hr; cases hr; exact store_twin C R p.1 _ k htwin
      | made f =>
        dsimp only
        rw [ha]
        cases hf : f (h0.getD p.2 []) with
        | none =>
          dsimp only [finish, Option.map]
          rw [set_self _ _ _ hR]
          exact ⟨hI, fun _ => rfl, fun r hr => by cases hr⟩
        | some s =>
          dsimp only [finish, Option.map]
          obtain ⟨hn, hd⟩ := make_new C F h0.length w.heap p.1 s
          refine ⟨?_, ?_, ?_⟩
          · apply finish_step hC hI hR p.1
            · intro j hj; rw [hexp j hj, hproc]; dsimp only; rw [hf, hd]
            · exact hn
          · intro _; rw [hd]
          · intro r hr; cases hr; exact store_twin C R p.1 _ k htwin
    | none =>
      have hexp : expected C F h0 k = C.special k := by unfold expected; rw [hres]
      rw [hexp]
      dsimp only
      cases hs : C.special k with
      | none =>
        dsimp only [finish, Option.map]
        rw [set_self _ _ _ hR]
        exact ⟨hI, fun _ => rfl, fun r hr => by cases hr⟩
      | some s =>
        dsimp only [finish, Option.map]
        obtain ⟨hn, hd⟩ := make_new C F h0.length w.heap k s
        refine ⟨?_, ?_, ?_⟩
        · apply finish_step hC hI hR k
          · intro j hj
            rcases hj with e | e
            · rw [e, hexp, hs, hd]
            · rw [hC.special k j e] at hs; cases hs
          · exact hn
        · intro _; rw [hd]
        · intro r hr; cases hr; exact store_twin C R k _ k (.inl rfl)

theorem getD_set_ne (h : Heap) (a b : Nat) (l : List Str) (hab : a ≠ b) : (h.set a l).getD b [] = h.getD b [] := by
  simp [List.getD, List.getElem?_set_ne hab]

theorem step_inv {C : Cls V} (hC : Good C) {F : Dict Str Nat} {h0 : Heap} (hF : GoodFields C F h0) {T : Nat → Str → Prop} {w : World V}
    (hI : Inv C F h0 T w) (op : Op) (hT : ∀ i k l, op = .change i k l → Private C F k ∧ ∀ k', Twin C k k' → T i k') :
    Inv C F h0 T (step C w op) := by
  cases op with
  | read i k =>
    unfold step
    dsimp only
    cases hR : w.recs[i]? with
    | none => exact hI
    | some R => exact (read_step hC hF hI hR k).1
  | copy i =>
    unfold step
    dsimp only
    cases hR : w.recs[i]? with
    | none => exact hI
    | some R =>
      dsimp only
      have hget : ∀ (j : Nat) S, (w.recs ++ [copy R])[j]? = some S → w.recs[j]? = some S ∨ S = copy R := by
        intro j S hS
        by_cases hj : j < w.recs.length
        · rw [List.getElem?_append_left hj] at hS; exact .inl hS
        · rw [List.getElem?_append_right (by omega)] at hS
          right
          have := List.mem_of_getElem? hS
          simpa using this
      have hmem : ∀ (j : Nat) S k r, (w.recs ++ [copy R])[j]? = some S → S.memo.get? k = some r → w.recs[j]? = some S := by
        intro j S k r hS hk
        rcases hget j S hS with h | h
        · exact h
        · subst h; simp [copy] at hk
      refine ⟨hI.len, hI.old, ?_, ?_, ?_, ?_⟩
      · intro j S hS
        rcases hget j S hS with h | h
        · exact hI.fields j S h
        · subst h; exact hI.fields i R hR
      · intro j S k r hS hk; exact hI.cls j S k r (hmem j S k r hS hk) hk
      · intro j S k r hS hk; exact hI.val j S k r (hmem j S k r hS hk) hk
      · intro j m S U k k' a hS hU hk hk'
        exact hI.own j m S U k k' a (hmem j S k _ hS hk) (hmem m U k' _ hU hk') hk hk'
  | change i k l =>
    obtain ⟨hpriv, hTk⟩ := hT i k l rfl
    unfold step
    dsimp only
    cases hR : w.recs[i]? with
    | none => exact hI
    | some R =>
      have hile : i < w.recs.length := by
        by_contra hc
        rw [List.getElem?_eq_none (by omega)] at hR; cases hR
      obtain ⟨h1, _, h3⟩ := read_step hC hF hI hR k
      dsimp only
      generalize read C w.heap R k = p at h1 h3 ⊢
      cases hp : p.1 with
      | none => simpa [overwrite] using h1
      | some r =>
        cases r with
        | val v => simpa [overwrite] using h1
        | obj a =>
          dsimp only [overwrite]
          have hk := h3 _ hp
          have hRi : (w.recs.set i p.2.2)[i]? = some p.2.2 := List.getElem?_set_self hile
          have hge : h0.length ≤ a := by
            rcases h1.cls i p.2.2 k _ hRi hk a rfl with h | h
            · exact h.1
            · exact absurd hpriv h.2
          refine ⟨by simpa using h1.len, ?_, h1.fields, ?_, ?_, h1.own⟩
          · intro b hb
            dsimp only
            rw [getD_set_ne _ _ _ _ (by omega)]
            exact h1.old b hb
          · intro j S k' r hS hk' b hb
            rcases h1.cls j S k' r hS hk' b hb with h | h
            · left; simpa using h
            · exact .inr h
          · intro j S k' r hS hk' hnT
            rw [h1.val j S k' r hS hk' hnT]
            cases r with
            | val v => rfl
            | obj b =>
              dsimp only [deref]
              have hne : a ≠ b := by
                rintro rfl
                obtain ⟨e, ht⟩ := h1.own i j p.2.2 S k k' a hRi hS hk hk' hge
                subst e
                exact hnT (hTk k' ht)
              rw [getD_set_ne _ _ _ _ hne]

theorem fresh_inv (C : Cls V) (F : Dict Str Nat) (h0 : Heap) (T : Nat → Str → Prop) : Inv C F h0 T (fresh h0 F) := by
  have hS : ∀ (j : Nat) (S : Rec V), (fresh h0 F : World V).recs[j]? = some S → S = ⟨F, []⟩ := by
    intro j S h
    have := List.mem_of_getElem? h
    simpa [fresh] using this
  refine ⟨le_refl _, fun _ _ => rfl, ?_, ?_, ?_, ?_⟩
  · intro j S h; rw [hS j S h]
  · intro j S k r h hk; rw [hS j S h] at hk; simp at hk
  · intro j S k r h hk; rw [hS j S h] at hk; simp at hk
  · intro j m S U k k' a h _ hk; rw [hS j S h] at hk; simp at hk

theorem run_inv {C : Cls V} (hC : Good C) {F : Dict Str Nat} {h0 : Heap} (hF : GoodFields C F h0) {T : Nat → Str → Prop} (ops : List Op)
    (hT : ∀ i k l, Op.change i k l ∈ ops → Private C F k ∧ ∀ k', Twin C k k' → T i k') (w : World V) (hI : Inv C F h0 T w) :
    Inv C F h0 T (run C w ops) := by
  induction ops generalizing w with
  | nil => exact hI
  | cons op ops ih =>
    exact ih (fun i k l h => hT i k l (List.mem_cons_of_mem _ h)) _
      (step_inv hC hF hI op (fun i k l h => hT i k l (by rw [h]; exact List.mem_cons_self)))

theorem look_fresh {C : Cls V} (hC : Good C) {F : Dict Str Nat} {h0 : Heap} (hF : GoodFields C F h0) (k : Str) :
    look C h0 ⟨F, []⟩ k = expected C F h0 k :=
  (read_step hC hF (fresh_inv C F h0 (fun _ _ => False)) (i := 0) (R := ⟨F, []⟩) rfl k).2.1 id

theorem read_twin {C : Cls V} (hC : Good C) (F : Dict Str Nat) (h : Heap) (k k' : Str) (hkk : Twin C k k') (r : Ref V)
    (hr : (Model.RecordHeap.read C h ⟨F, []⟩ k).1 = some r) : (Model.RecordHeap.read C h ⟨F, []⟩ k).2.2.memo.get? k' = some r := by
  revert hr
  unfold Model.RecordHeap.read
  simp only [Dict.get?_nil]
  cases hres : resolve C F k with
  | some p =>
    dsimp only
    obtain ⟨hp, htw⟩ := resolve_some hres
    have htwin : Twin C p.1 k := by
      rcases htw with h | h
      · exact .inl h.symm
      · exact .inr (hC.invol _ _ h)
    cases process C h p.1 p.2 with
    | none => intro hr; cases hr
    | some q =>
      intro hr
      cases hr
      exact store_twin C _ _ _ _ (twin_trans hC htwin hkk)
  | none =>
    dsimp only
    cases hs : C.special k with
    | none => intro hr; cases hr
    | some q =>
      intro hr
      cases hr
      exact store_twin C _ _ _ _ hkk

/-! ## The property -/

/-- **C78 (part).** Take a record, and any program that reads it, copies it, copies the copies, and changes lists it got from them, as long as those are
lists of tags whose value is not the raw list itself. Then every record has the raw fields the first had in the beginning, and `R[k]` is what it was
for the first in the beginning, for every record `R` and tag `k` but those whose own list was changed. What is missing: tags whose value is the raw list
itself; for these it is false (`C78_copy_shares`). -/
theorem C78_copies_partial {C : Cls V} (hC : Good C) (F : Dict Str Nat) (h0 : Heap) (hF : GoodFields C F h0) (ops : List Op)
    (hp : ∀ i k l, Op.change i k l ∈ ops → Private C F k) (i : Nat) (R : Rec V) (hR : (run C (fresh h0 F) ops).recs[i]? = some R) :
    raw (run C (fresh h0 F) ops).heap R = raw h0 (⟨F, []⟩ : Rec V) ∧
    ∀ k, (∀ op ∈ ops, ¬ Changes C i k op) → look C (run C (fresh h0 F) ops).heap R k = look C h0 ⟨F, []⟩ k := by
  have hI : Inv C F h0 (fun i k => ∃ op ∈ ops, Changes C i k op) (run C (fresh h0 F) ops) := by
    apply run_inv hC hF ops _ _ (fresh_inv C F h0 _)
    intro i k l h
    exact ⟨hp i k l h, fun k' hk' => ⟨_, h, k, l, rfl, hk'⟩⟩
  constructor
  · unfold raw
    rw [hI.fields i R hR]
    apply List.map_congr_left
    intro p hpF
    rw [hI.old _ (hF.inMem p hpF)]
  · intro k hk
    rw [look_fresh hC hF]
    refine (read_step hC hF hI hR k).2.1 ?_
    rintro ⟨op, h1, h2⟩
    exact hk op h1 h2

/-- **C78 is false of the code.** `copy()` is documented as giving "a completely decoupled copy". For a tag whose value is the raw list itself, whoever
changes the list they got from the copy changes the original: its value, and the raw field, which is what is written to files. -/
theorem C78_copy_shares (C : Cls V) (F : Dict Str Nat) (h0 : Heap) (k : Str) (a : Nat) (hk : F.get? k = some a) (ha : a < h0.length)
    (hs : C.proc k = .same) (l : List Str) :
    let w := run C (fresh h0 F) [.copy 0, .change 1 k l]
    ∃ R, w.recs[0]? = some R ∧ look C w.heap R k = some (.list l) ∧ (k, l) ∈ raw w.heap R := by
  have hread : ∀ h : Heap, Model.RecordHeap.read C h (⟨F, []⟩ : Rec V) k = (some (.obj a), h, store C ⟨F, []⟩ k (.obj a)) := by
    intro h
    simp [Model.RecordHeap.read, resolve, hk, process, hs, finish]
  refine ⟨⟨F, []⟩, ?_, ?_, ?_⟩
  · simp [run, step, fresh, Model.RecordHeap.copy, hread]
  · simp [run, step, fresh, Model.RecordHeap.copy, hread, look, deref, overwrite, ha, List.getD]
  · simp only [run, step, fresh, Model.RecordHeap.copy, hread, List.foldl, overwrite, raw, List.mem_map]
    refine ⟨(k, a), Dict.mem_of_get? hk, ?_⟩
    simp [hread, overwrite, ha, List.getD]

/-- **C78.** A record gives out the same list each time, under both names of the tag: what is done to the list shows in later reads of that record. -/
theorem C78_same_list {C : Cls V} (hC : Good C) (F : Dict Str Nat) (h0 : Heap) (hF : GoodFields C F h0) (k k' : Str) (hkk : Twin C k k')
    (l0 : List Str) (hl : look C h0 ⟨F, []⟩ k = some (.list l0)) (l : List Str) :
    let w := run C (fresh h0 F) [.change 0 k l]
    ∃ R, w.recs[0]? = some R ∧ look C w.heap R k' = some (.list l) := by
  obtain ⟨h1, _, _⟩ := read_step hC hF (fresh_inv C F h0 (fun _ _ => False)) (i := 0) (R := ⟨F, []⟩) rfl k
  have h3 := read_twin hC F h0 k k (.inl rfl)
  have h4 := read_twin hC F h0 k k' hkk
  have e : run C (fresh h0 F) [.change 0 k l] = ⟨overwrite (Model.RecordHeap.read C h0 ⟨F, []⟩ k).2.1 l (Model.RecordHeap.read C h0 ⟨F, []⟩ k).1,
      [(Model.RecordHeap.read C h0 (⟨F, []⟩ : Rec V) k).2.2]⟩ := rfl
  rw [e]
  unfold look at hl
  change Inv C F h0 _ ⟨(Model.RecordHeap.read C h0 ⟨F, []⟩ k).2.1, [(Model.RecordHeap.read C h0 ⟨F, []⟩ k).2.2]⟩ at h1
  dsimp only at hl ⊢
  generalize Model.RecordHeap.read C h0 (⟨F, []⟩ : Rec V) k = p at h1 h3 h4 hl ⊢
  cases hp : p.1 with
  | none => rw [hp] at hl; cases hl
  | some r =>
    rw [hp] at hl
    cases r with
    | val v => cases hl
    | obj a =>
      have hm := h4 _ hp
      have hlt := entry_lt (h1.cls 0 p.2.2 k _ rfl (h3 _ hp)) h1.len a rfl
      refine ⟨p.2.2, rfl, ?_⟩
      have hlt : a < List.length p.2.1 := hlt
      simp [look, Model.RecordHeap.read, hm, overwrite, deref, List.getD, hlt]

/-! ## Web of Science records -/

open Verif.Model (TagNames.wosAlt TagNames.wosTags WosFields.wosKinds WosFields.Prims)

/-- The six tags whose value is the raw list: the full and short authors, the editors, and the authors of the book. -/
def listTags : List Str := [['A', 'F'], ['B', 'E'], ['A', 'U'], ['B', 'A'], ['B', 'F'], ['E', 'D']]

theorem wosAlt_iff (a b : Str) : TagNames.wosAlt a = some b ↔ ((a, b) ∈ TagNames.wosTags ∨ (b, a) ∈ TagNames.wosTags) :=
  Verif.Props.C47_wos_alternatives a b

theorem wos_good (P : WosFields.Prims) (ident : Str) : Good (wosCls P ident) := by
  constructor
  · intro k b h
    have h : TagNames.wosAlt k = some b := h
    show TagNames.wosAlt b = some k
    rw [wosAlt_iff] at h ⊢
    exact h.symm
  · intro k b h
    have h : TagNames.wosAlt k = some b := h
    show (if k = "id".toList then _ else if k = "grants".toList then _ else none) = none
    have h1 : TagNames.wosAlt "id".toList = none := by decide +kernel
    have h2 : TagNames.wosAlt "grants".toList = none := by decide +kernel
    rw [if_neg (by rintro rfl; rw [h1] at h; cases h), if_neg (by rintro rfl; rw [h2] at h; cases h)]

/-- Fields as they are read from a file: the tags have two characters, and none is `j9`, the long name of `J9`. -/
theorem wos_fields (P : WosFields.Prims) (ident : Str) (F : Dict Str Nat) (h : Heap) (hF : ∀ p ∈ F, p.1.length = 2 ∧ p.1 ≠ ['j', '9'] ∧ p.2 < h.length) :
    GoodFields (wosCls P ident) F h := by
  refine ⟨fun p hp => (hF p hp).2.2, ?_⟩
  intro k b hkb hne hk
  have hkb : TagNames.wosAlt k = some b := hkb
  cases hb : F.get? b with
  | none => rfl
  | some a =>
    exfalso
    obtain ⟨a', ha'⟩ := Option.ne_none_iff_exists'.1 hk
    have h1 := hF _ (Dict.mem_of_get? hb)
    have h2 := hF _ (Dict.mem_of_get? ha')
    have hall : ∀ p ∈ TagNames.wosTags, p.2.length = 2 → p.2 = ['j', '9'] := by decide +kernel
    rcases (wosAlt_iff k b).1 hkb with h | h
    · exact h1.2.1 (hall _ h h1.1)
    · exact h2.2.1 (hall _ h h2.1)

theorem wos_same (P : WosFields.Prims) (ident : Str) (t : Str) :
    (wosCls P ident).proc t = .same ↔ t ∈ listTags ∨ t ∉ WosFields.wosKinds.keys := by
  have hall : ∀ p ∈ WosFields.wosKinds, p.2 = .whole ↔ p.1 ∈ listTags := by decide +kernel
  have hin : ∀ t ∈ listTags, WosFields.wosKinds.get? t = some .whole := by decide +kernel
  rw [← Dict.get?_eq_none_iff]
  unfold wosCls
  dsimp only
  cases h : WosFields.wosKinds.get? t with
  | none => simp
  | some k =>
    have := hall _ (Dict.mem_of_get? h)
    simp only [reduceCtorEq, or_false]
    rw [← this]
    cases k <;> simp

/-- **C78 (part), for Web of Science records.** A program may read and copy a record and change the lists it gets, but not those of authors and editors
and of tags that are not known: then every copy is written as the record was, and all values of copies it did not change are as they were. -/
theorem C78_wos_partial (P : WosFields.Prims) (ident : Str) (F : Dict Str Nat) (h0 : Heap) (hF : ∀ p ∈ F, p.1.length = 2 ∧ p.1 ≠ ['j', '9'] ∧ p.2 < h0.length)
    (ops : List Op)
    (hp : ∀ i k l, Op.change i k l ∈ ops → ∀ t, (t = k ∨ TagNames.wosAlt k = some t) → F.get? t ≠ none → t ∈ WosFields.wosKinds.keys ∧ t ∉ listTags)
    (i : Nat) (R : Rec (Str ⊕ Int)) (hR : (run (wosCls P ident) (fresh h0 F) ops).recs[i]? = some R) :
    Model.Wos.writeRecord ⟨raw (run (wosCls P ident) (fresh h0 F) ops).heap R, ident, false⟩ =
      Model.Wos.writeRecord ⟨raw h0 (⟨F, []⟩ : Rec (Str ⊕ Int)), ident, false⟩ ∧
    ((∀ k l, Op.change i k l ∉ ops) →
      ∀ k, look (wosCls P ident) (run (wosCls P ident) (fresh h0 F) ops).heap R k = look (wosCls P ident) h0 ⟨F, []⟩ k) := by
  obtain ⟨h1, h2⟩ := C78_copies_partial (wos_good P ident) F h0 (wos_fields P ident F h0 hF) ops (by
    intro i k l h t ht hn hsame
    rw [wos_same] at hsame
    have := hp i k l h t ht hn
    tauto) i R hR
  refine ⟨by rw [h1], ?_⟩
  intro hno k
  apply h2
  rintro op hop ⟨k', l, rfl, _⟩
  exact hno k' l hop

/-- **C78 is false of the code**, for the tags of authors and editors: the caller adds a name to the authors of the copy, and the original has it. -/
theorem C78_wos_shares (P : WosFields.Prims) (ident : Str) (F : Dict Str Nat) (h0 : Heap) (k : Str) (hk : k ∈ listTags) (a : Nat)
    (hF : F.get? k = some a) (ha : a < h0.length) (name : Str) :
    let l := h0.getD a [] ++ [name]
    let w := run (wosCls P ident) (fresh h0 F) [.copy 0, .change 1 k l]
    ∃ R, w.recs[0]? = some R ∧ look (wosCls P ident) w.heap R k = some (.list l) ∧ (k, l) ∈ raw w.heap R :=
  C78_copy_shares _ F h0 k a hF ha ((wos_same P ident k).2 (.inl hk)) _

/-! ## A record -/

/-- Some functions for ASCII. -/
def prims : WosFields.Prims := ⟨fun s => s.map Char.toUpper, fun s => s.map Char.toLower, fun c => c = ' ', fun s => s.all isDig, fun s => some (readNat s)⟩

/-- `AU` and `DE` (`"a; b"`) of a record. -/
def mem1 : Heap := [["Ada".toList], ["net; graph".toList]]
def fields1 : Dict Str Nat := [("AU".toList, 0), ("DE".toList, 1)]

example : ∀ p ∈ fields1, p.1.length = 2 ∧ p.1 ≠ ['j', '9'] ∧ p.2 < mem1.length := by decide

/-- A program that changes the key words of a copy, under their long name, and what the record and the copy then show. -/
example :
    let C := wosCls prims "x".toList
    let w := run C (fresh mem1 fields1) [.copy 0, .read 0 "DE".toList, .change 1 "authKeywords".toList []]
    (w.recs.map (fun R => look C w.heap R "DE".toList)) = [some (.list ["net".toList, "graph".toList]), some (.list [])] ∧
    (w.recs.map (fun R => look C w.heap R "AU".toList)) = [some (.list ["Ada".toList]), some (.list ["Ada".toList])] := by decide +kernel

example : ∀ t, (t = "authKeywords".toList ∨ TagNames.wosAlt "authKeywords".toList = some t) → fields1.get? t ≠ none →
    t ∈ WosFields.wosKinds.keys ∧ t ∉ listTags := by
  have h : TagNames.wosAlt "authKeywords".toList = some "DE".toList := by decide +kernel
  rw [h]
  rintro t (rfl | ht) hn
  · exact absurd (by decide) hn
  · cases ht; decide +kernel

/-- A name is added to the authors of the copy; the original is then written with it. -/
theorem C78_written_file_changes :
    let C := wosCls prims "x".toList
    let w := run C (fresh mem1 fields1) [.copy 0, .change 1 "AU".toList ["Ada".toList, "Bob".toList]]
    Model.Wos.writeRecord ⟨raw mem1 (⟨fields1, []⟩ : Rec (Str ⊕ Int)), [], false⟩ = some "AU Ada\nDE net; graph\nER\n".toList ∧
    w.recs.head?.bind (fun R => Model.Wos.writeRecord ⟨raw w.heap R, [], false⟩) = some "AU Ada\n   Bob\nDE net; graph\nER\n".toList := by
  decide +kernel

end Verif.Props.RecordHeap
