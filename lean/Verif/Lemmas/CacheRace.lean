import Verif.Spec.CacheRace
import Mathlib.Data.List.Infix

/-!
# Lemmas for C103
-/
set_option autoImplicit false
set_option linter.unusedSimpArgs false
namespace Verif.Lemmas.CacheRace
open Verif.Model.CacheRace Verif.Spec.CacheRace

variable {R β : Type}

/-- Some steps of one program. -/
def solo (W : World R β) (i : Nat) : Nat → Disk β × Pc R β → Disk β × Pc R β
  | 0, x => x
  | n + 1, x => solo W i n (act W i x.1 x.2)

theorem setPc_same (pc : Nat → Pc R β) (i : Nat) (p : Pc R β) : setPc pc i p i = p := by simp [setPc]
theorem setPc_other (pc : Nat → Pc R β) {i j : Nat} (h : j ≠ i) (p : Pc R β) : setPc pc i p j = pc j := by simp [setPc, h]
theorem setPc_self (pc : Nat → Pc R β) (i : Nat) : setPc pc i (pc i) = pc := by
  funext n; unfold setPc; split
  · rename_i h; rw [h]
  · rfl
theorem setPc_twice (pc : Nat → Pc R β) (i : Nat) (p q : Pc R β) : setPc (setPc pc i p) i q = setPc pc i q := by
  funext n; unfold setPc; split <;> rfl

theorem solo_reach (W : World R β) (i : Nat) (n : Nat) : ∀ (d : Disk β) (pc : Nat → Pc R β),
    Reach W ⟨d, pc⟩ ⟨(solo W i n (d, pc i)).1, setPc pc i (solo W i n (d, pc i)).2⟩ := by
  induction n with
  | zero => intro d pc; show Reach W _ ⟨d, setPc pc i (pc i)⟩; rw [setPc_self]; exact .refl
  | succ n ih =>
    intro d pc
    refine Relation.ReflTransGen.head (Step.run i ⟨d, pc⟩) ?_
    have := ih (act W i d (pc i)).1 (setPc pc i (act W i d (pc i)).2)
    rw [setPc_same, setPc_twice] at this
    exact this

/-- Steps of one program, given by what they lead to. -/
theorem reach_solo (W : World R β) (i n : Nat) {s : State R β} {d' : Disk β} {p' : Pc R β} (h : solo W i n (s.disk, s.pc i) = (d', p')) :
    Reach W s ⟨d', setPc s.pc i p'⟩ := by
  have := solo_reach W i n s.disk s.pc
  rw [h] at this
  exact this

theorem solo_add (W : World R β) (i a b : Nat) (x : Disk β × Pc R β) : solo W i (a + b) x = solo W i b (solo W i a x) := by
  induction a generalizing x with
  | zero => simp [solo]
  | succ a ih => rw [Nat.succ_add, solo, solo, ih]

/-! ## Mixtures -/

theorem mixture_nil (W : World R β) (old : List β) : Mixture W old [] := by intro o b h; simp at h

theorem mixture_writeByte (W : World R β) (old bs : List β) (h : Mixture W old bs) (j pos : Nat) (b : β) (hb : (W.dump j)[pos]? = some b) :
    Mixture W old (writeByte W.zero bs pos b) := by
  intro o c hc
  unfold writeByte at hc
  split at hc
  · rw [List.getElem?_set] at hc
    split at hc
    · rename_i he
      subst he
      cases hc
      exact .inr (.inr ⟨j, hb⟩)
    · exact h o c hc
  · rename_i hl
    rw [List.append_assoc, List.getElem?_append] at hc
    split at hc
    · exact h o c hc
    · rename_i ho
      rw [List.getElem?_append] at hc
      simp only [List.length_replicate] at hc
      split at hc
      · rename_i h2
        rw [List.getElem?_replicate, if_pos h2] at hc
        cases hc; exact .inl rfl
      · rename_i h2
        rw [List.getElem?_singleton] at hc
        split at hc
        · rename_i h3
          cases hc
          have : o = pos := by omega
          subst this
          exact .inr (.inr ⟨j, hb⟩)
        · cases hc

theorem mixture_snoc (W : World R β) (old bs got : List β) (h : Mixture W old bs) (hg : Mixture W old got) (b : β) (hb : bs[got.length]? = some b) :
    Mixture W old (got ++ [b]) := by
  intro o c hc
  rw [List.getElem?_append] at hc
  split at hc
  · exact hg o c hc
  · rw [List.getElem?_singleton] at hc
    split at hc
    · rename_i h1 h2
      cases hc
      have : o = got.length := by omega
      subst this
      exact h _ _ hb
    · cases hc

/-- What is known of a program. -/
def GoodPc (W : World R β) (old : List β) : Pc R β → Prop
  | .reading _ got => Mixture W old got
  | .done r => r = W.value ∨ ∃ bs, Mixture W old bs ∧ W.judge bs = some (.accept r)
  | _ => True

theorem put_data (d : Disk β) (k : Nat) (bs : List β) (n : Nat) : (d.put k bs).data n = if n = k then bs else d.data n := rfl

theorem act_good (W : World R β) (old : List β) (i : Nat) (d : Disk β) (p : Pc R β) (hd : ∀ k, Mixture W old (d.data k)) (hp : GoodPc W old p) :
    (∀ k, Mixture W old ((act W i d p).1.data k)) ∧ GoodPc W old (act W i d p).2 := by
  cases p with
  | check => unfold act; dsimp only; split <;> exact ⟨hd, trivial⟩
  | openRead =>
    unfold act; dsimp only; split
    · exact ⟨hd, trivial⟩
    · exact ⟨hd, mixture_nil W old⟩
  | reading k got =>
    unfold act; dsimp only
    split
    · rename_i r h; exact ⟨hd, .inr ⟨got, hp, h⟩⟩
    · exact ⟨hd, trivial⟩
    · exact ⟨hd, trivial⟩
    · split
      · rename_i b hb; exact ⟨hd, mixture_snoc W old _ got (hd k) hp b hb⟩
      · split <;> exact ⟨hd, trivial⟩
  | remove => unfold act; dsimp only; split <;> exact ⟨hd, trivial⟩
  | openWrite =>
    unfold act; dsimp only; split
    · refine ⟨?_, trivial⟩
      intro k
      show Mixture W old ((d.put d.next []).data k)
      rw [put_data]; split
      · exact mixture_nil W old
      · exact hd k
    · refine ⟨?_, trivial⟩
      intro k
      rw [put_data]; split
      · exact mixture_nil W old
      · exact hd k
  | writing k pos =>
    unfold act; dsimp only
    split
    · rename_i b hb
      refine ⟨?_, trivial⟩
      intro n
      rw [put_data]; split
      · exact mixture_writeByte W old _ (hd k) i pos b hb
      · exact hd n
    · exact ⟨hd, .inl rfl⟩
  | done r => exact ⟨hd, hp⟩
  | failed e => exact ⟨hd, trivial⟩
  | killed => exact ⟨hd, trivial⟩

theorem reach_good (W : World R β) (old : List β) {s s' : State R β} (h : Reach W s s') (hd : ∀ k, Mixture W old (s.disk.data k)) (hp : ∀ i, GoodPc W old (s.pc i)) :
    (∀ k, Mixture W old (s'.disk.data k)) ∧ ∀ i, GoodPc W old (s'.pc i) := by
  induction h with
  | refl => exact ⟨hd, hp⟩
  | @tail s1 _ _ hs ih =>
    obtain ⟨hd, hp⟩ := ih
    cases hs with
    | run i =>
      have := act_good W old i s1.disk (s1.pc i) hd (hp i)
      refine ⟨this.1, fun j => ?_⟩
      show GoodPc W old (setPc s1.pc i _ j)
      unfold setPc; split
      · exact this.2
      · exact hp j
    | kill i =>
      refine ⟨hd, fun j => ?_⟩
      show GoodPc W old (setPc s1.pc i _ j)
      unfold setPc; split
      · trivial
      · exact hp j

/-! ## An intact cache -/

/-- Where a program can be while the cache is intact. -/
def CalmPc (W : World R β) (d : Disk β) : Pc R β → Prop
  | .check => True
  | .openRead => True
  | .reading k got => d.entry = some k ∧ got <+: d.data k
  | .done r => r = W.value
  | .killed => True
  | _ => False

theorem prefix_snoc {a b : List β} (h : a <+: b) {x : β} (hx : b[a.length]? = some x) : a ++ [x] <+: b := by
  obtain ⟨c, rfl⟩ := h
  rw [List.getElem?_append_right (le_refl _), Nat.sub_self] at hx
  cases c with
  | nil => simp at hx
  | cons y c =>
    simp at hx
    subst hx
    exact ⟨c, by simp⟩

theorem prefix_end {a b : List β} (h : a <+: b) (hx : b[a.length]? = none) : a = b := by
  rw [List.getElem?_eq_none_iff] at hx
  exact h.eq_of_length (le_antisymm h.length_le hx)

theorem act_calm (W : World R β) (hW : Pickles W) (i : Nat) (d : Disk β) (hd : Intact W d) (p : Pc R β) (hp : CalmPc W d p) :
    (act W i d p).1 = d ∧ CalmPc W d (act W i d p).2 := by
  obtain ⟨k, j, he, hk⟩ := hd
  cases p with
  | check => unfold act; rw [he]; exact ⟨rfl, trivial⟩
  | openRead => unfold act; rw [he]; exact ⟨rfl, he, List.nil_prefix⟩
  | reading k' got =>
    obtain ⟨h1, h2⟩ := hp
    rw [he] at h1
    cases h1
    rw [hk] at h2
    unfold act; dsimp only
    by_cases hg : got = W.dump j
    · rw [hg, (hW j).1]; exact ⟨rfl, rfl⟩
    · rw [(hW j).2 got h2 hg]
      dsimp only
      rw [hk]
      cases hx : (W.dump j)[got.length]? with
      | some b => exact ⟨rfl, he, by rw [hk]; exact prefix_snoc h2 hx⟩
      | none => exact absurd (prefix_end h2 hx) hg
  | done r => exact ⟨rfl, hp⟩
  | killed => exact ⟨rfl, trivial⟩
  | remove => exact absurd hp id
  | openWrite => exact absurd hp id
  | writing k pos => exact absurd hp id
  | failed e => exact absurd hp id

theorem reach_calm (W : World R β) (hW : Pickles W) {s s' : State R β} (h : Reach W s s') (hd : Intact W s.disk) (hp : ∀ i, CalmPc W s.disk (s.pc i)) :
    s'.disk = s.disk ∧ ∀ i, CalmPc W s.disk (s'.pc i) := by
  induction h with
  | refl => exact ⟨rfl, hp⟩
  | @tail s1 _ _ hs ih =>
    obtain ⟨he, hp⟩ := ih
    cases hs with
    | run i =>
      have := act_calm W hW i s1.disk (he ▸ hd) (s1.pc i) (he ▸ hp i)
      refine ⟨this.1.trans he, fun j => ?_⟩
      show CalmPc W s.disk (setPc s1.pc i _ j)
      unfold setPc; split
      · rw [← he]; exact this.2
      · exact hp j
    | kill i =>
      refine ⟨he, fun j => ?_⟩
      show CalmPc W s.disk (setPc s1.pc i _ j)
      unfold setPc; split
      · trivial
      · exact hp j

theorem solo_done (W : World R β) (i n : Nat) (d : Disk β) (r : R) : solo W i n (d, .done r) = (d, .done r) := by
  induction n with
  | zero => rfl
  | succ n ih => rw [solo]; exact ih

/-- Reading the rest of an intact cache. -/
theorem solo_read (W : World R β) (hW : Pickles W) (i : Nat) (d : Disk β) (k j : Nat) (hk : d.data k = W.dump j) :
    ∀ (m : Nat) (got : List β), got <+: W.dump j → (W.dump j).length - got.length = m → ∃ n, solo W i n (d, .reading k got) = (d, .done W.value) := by
  intro m
  induction m with
  | zero =>
    intro got hg hm
    have : got = W.dump j := hg.eq_of_length (le_antisymm hg.length_le (by omega))
    refine ⟨1, ?_⟩
    simp only [solo, act, this, (hW j).1]
  | succ m ih =>
    intro got hg hm
    have hne : got ≠ W.dump j := by intro e; rw [e] at hm; omega
    have hlt : got.length < (W.dump j).length := by omega
    have hb : (W.dump j)[got.length]? = some (W.dump j)[got.length] := List.getElem?_eq_getElem hlt
    obtain ⟨n, hn⟩ := ih (got ++ [(W.dump j)[got.length]]) (prefix_snoc hg hb) (by simp; omega)
    refine ⟨n + 1, ?_⟩
    rw [solo]
    simp only [act, (hW j).2 got hg hne, hk, hb]
    exact hn

/-- A program that is not killed comes to its end on an intact cache. -/
theorem solo_ends (W : World R β) (hW : Pickles W) (i : Nat) (d : Disk β) (hd : Intact W d) (p : Pc R β) (hp : CalmPc W d p) (hk : p ≠ .killed) :
    ∃ n, solo W i n (d, p) = (d, .done W.value) := by
  obtain ⟨k, j, he, hj⟩ := hd
  have hopen : ∃ n, solo W i n (d, .openRead) = (d, .done W.value) := by
    obtain ⟨n, hn⟩ := solo_read W hW i d k j hj _ [] List.nil_prefix rfl
    refine ⟨n + 1, ?_⟩
    rw [solo]
    simp only [act, he]
    exact hn
  cases p with
  | check =>
    obtain ⟨n, hn⟩ := hopen
    refine ⟨n + 1, ?_⟩
    rw [solo]
    simp only [act, he]
    exact hn
  | openRead => exact hopen
  | reading k' got =>
    obtain ⟨h1, h2⟩ := hp
    rw [he] at h1
    cases h1
    rw [hj] at h2
    exact solo_read W hW i d k j hj _ got h2 rfl
  | done r => exact ⟨0, by rw [show r = W.value from hp]; rfl⟩
  | killed => exact absurd rfl hk
  | remove => exact absurd hp id
  | openWrite => exact absurd hp id
  | writing k pos => exact absurd hp id
  | failed e => exact absurd hp id

/-! ## Writing -/

theorem writeByte_end (zero : β) (bs : List β) (b : β) : writeByte zero bs bs.length b = bs ++ [b] := by
  unfold writeByte
  rw [if_neg (lt_irrefl _)]
  simp

/-- A program that writes alone: after `m` bytes. -/
theorem solo_write (W : World R β) (i k : Nat) (d : Disk β) (hd : d.data k = []) : ∀ m, m ≤ (W.dump i).length →
    ∃ d', solo W i m (d, .writing k 0) = (d', .writing k m) ∧ d'.entry = d.entry ∧ d'.next = d.next ∧ d'.data k = (W.dump i).take m ∧ ∀ n, n ≠ k → d'.data n = d.data n := by
  intro m
  induction m with
  | zero => intro _; exact ⟨d, rfl, rfl, rfl, by simp [hd], fun _ _ => rfl⟩
  | succ m ih =>
    intro hm
    obtain ⟨d', h1, h2, h3, h4, h5⟩ := ih (by omega)
    have hlt : m < (W.dump i).length := by omega
    have hb : (W.dump i)[m]? = some (W.dump i)[m] := List.getElem?_eq_getElem hlt
    refine ⟨d'.put k (writeByte W.zero (d'.data k) m (W.dump i)[m]), ?_, h2, h3, ?_, ?_⟩
    · rw [solo_add W i m 1, h1]
      simp only [solo, act, hb]
    · rw [put_data, if_pos rfl, h4]
      have hl : ((W.dump i).take m).length = m := by simp; omega
      have := writeByte_end W.zero ((W.dump i).take m) (W.dump i)[m]
      rw [hl] at this
      rw [this, List.take_succ_eq_append_getElem hlt]
    · intro n hn
      rw [put_data, if_neg hn, h5 n hn]

/-! ## A cache that is cut short -/

/-- Where a program can be when the cache is cut short. -/
def StuckPc (d : Disk β) : Pc R β → Prop
  | .check => True
  | .openRead => True
  | .reading k got => d.entry = some k ∧ got <+: d.data k
  | .failed _ => True
  | .killed => True
  | _ => False

theorem act_stuck (W : World R β) (i : Nat) (d : Disk β) (k : Nat) (he : d.entry = some k) (hc : CutShort W (d.data k)) (p : Pc R β) (hp : StuckPc d p) :
    (act W i d p).1 = d ∧ StuckPc d (act W i d p).2 := by
  cases p with
  | check => unfold act; rw [he]; exact ⟨rfl, trivial⟩
  | openRead => unfold act; rw [he]; exact ⟨rfl, he, List.nil_prefix⟩
  | reading k' got =>
    obtain ⟨h1, h2⟩ := hp
    rw [he] at h1
    cases h1
    unfold act; dsimp only
    rw [hc.1 got h2]
    dsimp only
    cases hx : (d.data k)[got.length]? with
    | some b => exact ⟨rfl, he, prefix_snoc h2 hx⟩
    | none =>
      have := prefix_end h2 hx
      rw [this, hc.2]
      exact ⟨rfl, trivial⟩
  | failed e => exact ⟨rfl, trivial⟩
  | killed => exact ⟨rfl, trivial⟩
  | remove => exact absurd hp id
  | openWrite => exact absurd hp id
  | writing k pos => exact absurd hp id
  | done r => exact absurd hp id

theorem reach_stuck (W : World R β) {s s' : State R β} (h : Reach W s s') (k : Nat) (he : s.disk.entry = some k) (hc : CutShort W (s.disk.data k)) (hp : ∀ i, StuckPc s.disk (s.pc i)) :
    s'.disk = s.disk ∧ ∀ i, StuckPc s.disk (s'.pc i) := by
  induction h with
  | refl => exact ⟨rfl, hp⟩
  | @tail s1 _ _ hs ih =>
    obtain ⟨hd, hp⟩ := ih
    cases hs with
    | run i =>
      have := act_stuck W i s1.disk k (hd ▸ he) (hd ▸ hc) (s1.pc i) (hd ▸ hp i)
      refine ⟨this.1.trans hd, fun j => ?_⟩
      show StuckPc s.disk (setPc s1.pc i _ j)
      unfold setPc; split
      · rw [← hd]; exact this.2
      · exact hp j
    | kill i =>
      refine ⟨hd, fun j => ?_⟩
      show StuckPc s.disk (setPc s1.pc i _ j)
      unfold setPc; split
      · trivial
      · exact hp j

/-! ## A cache that is rejected -/

theorem solo_reject (W : World R β) (i k : Nat) (d : Disk β) (he : d.entry = some k) (p : List β) (hp : p <+: d.data k) (hq : ∀ q, q <+: p → q ≠ p → W.judge q = none)
    (hr : W.judge p = some .caught ∨ (p = d.data k ∧ W.judge p = none ∧ W.atEnd p = true)) : ∃ n, solo W i n (d, .check) = (d, .remove) := by
  have hread : ∀ (m : Nat) (got : List β), got <+: p → p.length - got.length = m → ∃ n, solo W i n (d, .reading k got) = (d, .remove) := by
    intro m
    induction m with
    | zero =>
      intro got hg hm
      have : got = p := hg.eq_of_length (le_antisymm hg.length_le (by omega))
      subst this
      refine ⟨1, ?_⟩
      rcases hr with h | ⟨h1, h2, h3⟩
      · simp only [solo, act, h]
      · have hn : (d.data k)[got.length]? = none := by rw [← h1]; simp
        simp only [solo, act, h2, hn, h3, if_true]
    | succ m ih =>
      intro got hg hm
      have hne : got ≠ p := by intro e; rw [e] at hm; omega
      have hlt : got.length < p.length := by omega
      have hb : p[got.length]? = some p[got.length] := List.getElem?_eq_getElem hlt
      have hb' : (d.data k)[got.length]? = some p[got.length] := by
        obtain ⟨c, hc⟩ := hp
        rw [← hc, List.getElem?_append_left hlt, hb]
      obtain ⟨n, hn⟩ := ih (got ++ [p[got.length]]) (prefix_snoc hg hb) (by simp; omega)
      refine ⟨n + 1, ?_⟩
      rw [solo]
      simp only [act, hq got hg hne, hb']
      exact hn
  obtain ⟨n, hn⟩ := hread _ [] List.nil_prefix rfl
  refine ⟨n + 2, ?_⟩
  rw [solo, solo]
  simp only [act, he]
  exact hn

/-! ## Loading alone -/

/-- Opening the file for writing and writing all, alone. -/
theorem solo_openWrite (W : World R β) (i : Nat) (d : Disk β) : ∃ n d' k, solo W i n (d, .openWrite) = (d', .done W.value) ∧ d'.entry = some k ∧ d'.data k = W.dump i := by
  obtain ⟨d1, k, h1, h2, h3⟩ : ∃ d1 k, act W i d .openWrite = (d1, Pc.writing k 0) ∧ d1.entry = some k ∧ d1.data k = [] := by
    unfold act; dsimp only
    cases he : d.entry with
    | none => exact ⟨_, _, rfl, rfl, by show (d.put d.next []).data d.next = []; rw [put_data, if_pos rfl]⟩
    | some k => exact ⟨_, _, rfl, he, by rw [put_data, if_pos rfl]⟩
  obtain ⟨d', h4, h5, _, h6, _⟩ := solo_write W i k d1 h3 (W.dump i).length (le_refl _)
  refine ⟨1 + (W.dump i).length + 1, d', k, ?_, h5.trans h2, by rw [h6, List.take_length]⟩
  rw [solo_add, solo_add]
  have : solo W i 1 (d, .openWrite) = (d1, .writing k 0) := by simp only [solo, h1]
  rw [this, h4]
  simp [solo, act]

/-- From a file that is to be removed. -/
theorem solo_remove (W : World R β) (i k : Nat) (d : Disk β) (he : d.entry = some k) : ∃ n d' k, solo W i n (d, .remove) = (d', .done W.value) ∧ d'.entry = some k ∧ d'.data k = W.dump i := by
  obtain ⟨n, d', k', h⟩ := solo_openWrite W i { d with entry := none }
  refine ⟨n + 1, d', k', ?_, h.2⟩
  rw [solo]
  simp only [act, he]
  exact h.1

/-! ## Two programs write at once -/

theorem writeByte_set (zero : β) (bs : List β) (b c : β) : writeByte zero (bs ++ [b]) bs.length c = bs ++ [c] := by
  unfold writeByte
  rw [if_pos (by simp)]
  simp

/-- One after the other, two programs at the same place write a byte; the second is what remains. -/
theorem write_two (W : World R β) (x y : Nat) (hxy : x ≠ y) (s : State R β) (bs : List β) (k : Nat) (hd : s.disk.data k = bs) (hx : s.pc x = .writing k bs.length)
    (hy : s.pc y = .writing k bs.length) (b c : β) (hb : (W.dump x)[bs.length]? = some b) (hc : (W.dump y)[bs.length]? = some c) :
    ∃ s', Reach W s s' ∧ s'.disk.entry = s.disk.entry ∧ s'.disk.data k = bs ++ [c] ∧ s'.pc x = .writing k (bs.length + 1) ∧ s'.pc y = .writing k (bs.length + 1) ∧
      ∀ z, z ≠ x → z ≠ y → s'.pc z = s.pc z := by
  have h1 := Relation.ReflTransGen.single (Step.run (W := W) x s)
  have ha : act W x s.disk (s.pc x) = (s.disk.put k (bs ++ [b]), .writing k (bs.length + 1)) := by
    simp only [hx, act, hb, hd, writeByte_end]
  rw [ha] at h1
  have h2 := Relation.ReflTransGen.single (Step.run (W := W) y ⟨s.disk.put k (bs ++ [b]), setPc s.pc x (.writing k (bs.length + 1))⟩)
  have hb2 : act W y (s.disk.put k (bs ++ [b])) (setPc s.pc x (.writing k (bs.length + 1)) y) = ((s.disk.put k (bs ++ [b])).put k (bs ++ [c]), .writing k (bs.length + 1)) := by
    simp only [setPc_other _ hxy.symm, hy, act, hc, put_data, if_true, writeByte_set]
  dsimp only at h2
  rw [hb2] at h2
  refine ⟨_, h1.trans h2, rfl, ?_, ?_, ?_, ?_⟩
  · show ((s.disk.put k (bs ++ [b])).put k (bs ++ [c])).data k = _
    rw [put_data, if_pos rfl]
  · show setPc (setPc s.pc x _) y _ x = _
    rw [setPc_other _ hxy, setPc_same]
  · exact setPc_same _ _ _
  · intro z h3 h4
    show setPc (setPc s.pc x _) y _ z = _
    rw [setPc_other _ h4, setPc_other _ h3]

/-- Two programs that load at once without a cache can write any mixture of what each would write. -/
theorem mix_reach (W : World R β) (x y : Nat) (hxy : x ≠ y) (bs : List β) (hx : (W.dump x).length = bs.length) (hy : (W.dump y).length = bs.length)
    (hbs : ∀ (o : Nat) (b : β), bs[o]? = some b → (W.dump x)[o]? = some b ∨ (W.dump y)[o]? = some b) : ∀ m, m ≤ bs.length →
    ∃ s, Reach W (start none) s ∧ s.disk.entry = some 0 ∧ s.disk.data 0 = bs.take m ∧ s.pc x = .writing 0 m ∧ s.pc y = .writing 0 m ∧ ∀ z, z ≠ x → z ≠ y → s.pc z = .check := by
  intro m
  induction m with
  | zero =>
    intro _
    let d1 : Disk β := { (fresh (β := β) none).put 0 [] with entry := some 0, next := 1 }
    have h1 : Reach W (start none) ⟨fresh none, setPc (fun _ => .check) x .openWrite⟩ := reach_solo W x 1 (s := start none) (by simp [solo, act, start, fresh])
    have h2 := h1.trans (reach_solo W y 1 (s := ⟨fresh none, setPc (fun _ => .check) x .openWrite⟩) (d' := fresh none) (p' := .openWrite)
      (by simp [solo, act, setPc_other _ hxy.symm, fresh]))
    have h3 := h2.trans (reach_solo W x 1 (s := ⟨fresh none, setPc (setPc (fun _ => .check) x .openWrite) y .openWrite⟩) (d' := d1) (p' := .writing 0 0)
      (by simp [solo, act, setPc_other _ hxy, setPc_same, fresh, d1]))
    have h4 := h3.trans (reach_solo W y 1 (s := ⟨d1, setPc (setPc (setPc (fun _ => .check) x .openWrite) y .openWrite) x (.writing 0 0)⟩) (d' := d1.put 0 []) (p' := .writing 0 0)
      (by simp [solo, act, setPc_other _ hxy.symm, setPc_same, d1]))
    refine ⟨_, h4, rfl, ?_, ?_, ?_, ?_⟩
    · show (d1.put 0 []).data 0 = _
      rw [put_data, if_pos rfl]; rfl
    · show setPc _ y _ x = _
      rw [setPc_other _ hxy]; exact setPc_same _ _ _
    · exact setPc_same _ _ _
    · intro z h5 h6
      show setPc _ y _ z = _
      rw [setPc_other _ h6]; dsimp only; rw [setPc_other _ h5, setPc_other _ h6, setPc_other _ h5]
  | succ m ih =>
    intro hm
    obtain ⟨s, hr, he, hd, hpx, hpy, ho⟩ := ih (by omega)
    have hl : (bs.take m).length = m := by simp; omega
    have hlt : m < bs.length := by omega
    have hbm : bs[m]? = some bs[m] := List.getElem?_eq_getElem hlt
    have hxm : (W.dump x)[m]? = some ((W.dump x)[m]'(by omega)) := List.getElem?_eq_getElem _
    have hym : (W.dump y)[m]? = some ((W.dump y)[m]'(by omega)) := List.getElem?_eq_getElem _
    have ht : bs.take (m + 1) = bs.take m ++ [bs[m]] := List.take_succ_eq_append_getElem hlt
    rcases hbs m _ hbm with h | h
    · obtain ⟨s', h1, h2, h3, h4, h5, h6⟩ := write_two W y x hxy.symm s (bs.take m) 0 hd (by rw [hl]; exact hpy) (by rw [hl]; exact hpx) _ _ (by rw [hl]; exact hym) (by rw [hl]; exact h)
      rw [hl] at h4 h5
      exact ⟨s', hr.trans h1, h2.trans he, by rw [h3, ht], h5, h4, fun z a b => (h6 z b a).trans (ho z a b)⟩
    · obtain ⟨s', h1, h2, h3, h4, h5, h6⟩ := write_two W x y hxy s (bs.take m) 0 hd (by rw [hl]; exact hpx) (by rw [hl]; exact hpy) _ _ (by rw [hl]; exact hxm) (by rw [hl]; exact h)
      rw [hl] at h4 h5
      exact ⟨s', hr.trans h1, h2.trans he, by rw [h3, ht], h4, h5, fun z a b => (h6 z a b).trans (ho z a b)⟩

/-- Reading bytes that are accepted in the end. -/
theorem solo_accept (W : World R β) (i k : Nat) (d : Disk β) (he : d.entry = some k) (r : R) (hr : W.judge (d.data k) = some (.accept r))
    (hq : ∀ q, q <+: d.data k → q ≠ d.data k → W.judge q = none) : ∃ n, solo W i n (d, .check) = (d, .done r) := by
  have hread : ∀ (m : Nat) (got : List β), got <+: d.data k → (d.data k).length - got.length = m → ∃ n, solo W i n (d, .reading k got) = (d, .done r) := by
    intro m
    induction m with
    | zero =>
      intro got hg hm
      have : got = d.data k := hg.eq_of_length (le_antisymm hg.length_le (by omega))
      refine ⟨1, ?_⟩
      simp only [solo, act, this, hr]
    | succ m ih =>
      intro got hg hm
      have hne : got ≠ d.data k := by intro e; rw [e] at hm; omega
      have hlt : got.length < (d.data k).length := by omega
      have hb : (d.data k)[got.length]? = some (d.data k)[got.length] := List.getElem?_eq_getElem hlt
      obtain ⟨n, hn⟩ := ih (got ++ [(d.data k)[got.length]]) (prefix_snoc hg hb) (by simp; omega)
      refine ⟨n + 1, ?_⟩
      rw [solo]
      simp only [act, hq got hg hne, hb]
      exact hn
  obtain ⟨n, hn⟩ := hread _ [] List.nil_prefix rfl
  refine ⟨n + 2, ?_⟩
  rw [solo, solo]
  simp only [act, he]
  exact hn

/-- Only program `i` runs. -/
theorem solo_alone (W : World R β) (i n : Nat) : ∀ (d : Disk β) (pc : Nat → Pc R β),
    Relation.ReflTransGen (Alone W i) ⟨d, pc⟩ ⟨(solo W i n (d, pc i)).1, setPc pc i (solo W i n (d, pc i)).2⟩ := by
  induction n with
  | zero => intro d pc; show Relation.ReflTransGen _ _ (State.mk d (setPc pc i (pc i))); rw [setPc_self]
  | succ n ih =>
    intro d pc
    refine Relation.ReflTransGen.head (b := ⟨(act W i d (pc i)).1, setPc pc i (act W i d (pc i)).2⟩) ⟨Step.run i ⟨d, pc⟩, fun j hj => setPc_other _ hj _, ?_⟩ ?_
    · show setPc pc i _ i ≠ Pc.killed ∨ pc i = .killed
      rw [setPc_same]
      by_cases h : pc i = .killed
      · exact .inr h
      · refine .inl fun he => h ?_
        revert he
        cases pc i <;> unfold act <;> dsimp only <;> (try (split <;> (try split) <;> (try split))) <;> simp
    · have := ih (act W i d (pc i)).1 (setPc pc i (act W i d (pc i)).2)
      rw [setPc_same, setPc_twice] at this
      exact this

theorem alone_reach (W : World R β) (i : Nat) {s s' : State R β} (h : Relation.ReflTransGen (Alone W i) s s') : Reach W s s' ∧ ∀ j, j ≠ i → s'.pc j = s.pc j := by
  induction h with
  | refl => exact ⟨.refl, fun _ _ => rfl⟩
  | tail _ hs ih => exact ⟨ih.1.tail hs.1, fun j hj => (hs.2.1 j hj).trans (ih.2 j hj)⟩

end Verif.Lemmas.CacheRace
