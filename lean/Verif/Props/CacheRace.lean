import Verif.Lemmas.CacheRace

/-!
# C103: loading one directory with a cache from several programs at once

Any number of programs run `RecordCollection(directory, cached = True)` side by side on a directory whose files do not change; any of them may be killed at any time. The property: every
load that is not killed ends with the collection reading the files gives. It holds while there is a complete cache (`C103_parallel`) and for a load that runs alone (`C103_alone`,
`C103_alone_rejected`). It does not hold in general: a load raises `EOFError` or the like when another has just begun to write the cache (`C103_half_written`), `FileNotFoundError` when
another has just removed a cache that is out of date (`C103_removed_twice`); a program killed while it writes leaves a cache on which all later loads fail, for ever (`C103_killed`); and two that
write at once can leave any mixture of their bytes, which a later load takes if it unpickles (`C103_mixed`). What remains is `C103_right_partial`: a load that ends gives the right
collection, provided no mixture of the bytes written unpickles to a wrong one.
-/
set_option autoImplicit false
namespace Verif.Props.CacheRace
open Verif.Model.CacheRace Verif.Spec.CacheRace Verif.Lemmas.CacheRace

variable {R β : Type}

/-! ### The parts that hold -/

/-- While the cache is complete, loads do not disturb each other: whatever the interleaving and whoever is killed, the cache stays as it is, no load fails, each that ends gives the collection,
and each that is not killed can always go on to its end. -/
theorem C103_parallel (W : World R β) (hW : Pickles W) (s : State R β) (hd : Intact W s.disk) (hs : ∀ i, s.pc i = .check ∨ s.pc i = .done W.value) (s' : State R β) (h : Reach W s s') :
    s'.disk = s.disk ∧ (∀ i e, s'.pc i ≠ .failed e) ∧ (∀ i r, s'.pc i = .done r → r = W.value) ∧
      ∀ i, s'.pc i ≠ .killed → ∃ s'', Relation.ReflTransGen (Alone W i) s' s'' ∧ s''.pc i = .done W.value := by
  have hc : ∀ i, CalmPc W s.disk (s.pc i) := by
    intro i
    rcases hs i with e | e <;> rw [e]
    · trivial
    · rfl
  obtain ⟨h1, h2⟩ := reach_calm W hW h hd hc
  refine ⟨h1, ?_, ?_, ?_⟩
  · intro i e he
    have := h2 i
    rw [he] at this
    exact this
  · intro i r he
    have := h2 i
    rw [he] at this
    exact this
  · intro i hk
    obtain ⟨n, hn⟩ := solo_ends W hW i s'.disk (h1 ▸ hd) (s'.pc i) (h1 ▸ h2 i) hk
    have := solo_alone W i n s'.disk s'.pc
    rw [hn] at this
    exact ⟨_, this, setPc_same _ _ _⟩

/-- A load that runs alone where there is no cache ends with the collection, and leaves a complete cache. -/
theorem C103_alone (W : World R β) (i : Nat) :
    ∃ s, Relation.ReflTransGen (Alone W i) (start none) s ∧ s.pc i = .done W.value ∧ Intact W s.disk ∧ ∀ j, j ≠ i → s.pc j = .check := by
  obtain ⟨n, d', k, h1, h2, h3⟩ := solo_openWrite W i (fresh none)
  have := solo_alone W i (1 + n) (fresh none) (fun _ => .check)
  have he : solo W i (1 + n) (fresh none, .check) = (d', .done W.value) := by
    rw [solo_add]
    have : solo W i 1 (fresh none, .check) = (fresh none, .openWrite) := by simp [solo, act, fresh]
    rw [this, h1]
  rw [he] at this
  exact ⟨_, this, by simp [setPc], ⟨k, i, h2, h3⟩, fun j hj => by simp [setPc, hj]⟩

/-- So does one that finds a cache it rejects (one that is out of date, or broken in a way that is noticed). -/
theorem C103_alone_rejected (W : World R β) (i : Nat) (bs : List β) (hbs : Rejected W bs) :
    ∃ s, Relation.ReflTransGen (Alone W i) (start (some bs)) s ∧ s.pc i = .done W.value ∧ Intact W s.disk ∧ ∀ j, j ≠ i → s.pc j = .check := by
  obtain ⟨p, hp, hq, hr⟩ := hbs
  obtain ⟨n, hn⟩ := solo_reject W i 0 (fresh (some bs)) rfl p hp hq hr
  obtain ⟨n2, d', k, h1, h2, h3⟩ := solo_remove W i 0 (fresh (some bs)) rfl
  have := solo_alone W i (n + n2) (fresh (some bs)) (fun _ => .check)
  have he : solo W i (n + n2) (fresh (some bs), .check) = (d', .done W.value) := by rw [solo_add, hn, h1]
  rw [he] at this
  exact ⟨_, this, by simp [setPc], ⟨k, i, h2, h3⟩, fun j hj => by simp [setPc, hj]⟩

/-- In every interleaving, whoever is killed, what a load gives is either read from the files or unpickled from bytes each of which is at this place in the old cache, in what some program
pickles, or zero. -/
theorem C103_source (W : World R β) (old : Option (List β)) (s : State R β) (h : Reach W (start old) s) (i : Nat) (r : R) (hr : s.pc i = .done r) :
    r = W.value ∨ ∃ bs, Mixture W (old.getD []) bs ∧ W.judge bs = some (.accept r) := by
  have hd : ∀ k, Mixture W (old.getD []) ((start (R := R) old).disk.data k) := by
    intro k
    cases old with
    | none => exact mixture_nil W _
    | some bs =>
      show Mixture W bs (if k = 0 then bs else [])
      split
      · intro o b hb; exact .inr (.inl hb)
      · exact mixture_nil W _
  have := (reach_good W (old.getD []) h hd (fun _ => trivial)).2 i
  rw [hr] at this
  exact this

/-- So a load that ends gives the collection, if no mixture unpickles to another one. Missing of the property: that loads do not fail (`C103_half_written`, `C103_removed_twice`, `C103_killed`), and
the condition on mixtures (`C103_mixed`). -/
theorem C103_right_partial (W : World R β) (old : Option (List β)) (hm : ∀ bs r, Mixture W (old.getD []) bs → W.judge bs = some (.accept r) → r = W.value)
    (s : State R β) (h : Reach W (start old) s) (i : Nat) (r : R) (hr : s.pc i = .done r) : r = W.value := by
  rcases C103_source W old s h i r hr with e | ⟨bs, h1, h2⟩
  · exact e
  · exact hm bs r h1 h2

/-! ### The parts that do not -/

/-- Where there is no cache, a load fails if it comes just when another has opened the cache for writing. -/
theorem C103_half_written (W : World R β) (h0 : W.judge [] = none) (h1 : W.atEnd [] = false) (i j : Nat) (hij : i ≠ j) :
    ∃ s, Reach W (start none) s ∧ s.pc j = .failed .unpickling ∧ s.pc i = .writing 0 0 := by
  have r1 : Reach W (start none) ⟨{ (fresh (β := β) none).put 0 [] with entry := some 0, next := 1 }, setPc (fun _ => .check) i (.writing 0 0)⟩ :=
    reach_solo W i 2 (s := start none) (by simp [solo, act, start, fresh])
  have r2 := r1.trans (reach_solo W j 3 (s := ⟨{ (fresh (β := β) none).put 0 [] with entry := some 0, next := 1 }, setPc (fun _ => .check) i (.writing 0 0)⟩)
    (d' := { (fresh (β := β) none).put 0 [] with entry := some 0, next := 1 }) (p' := .failed .unpickling)
    (by simp [solo, act, setPc_other _ hij.symm, h0, h1, put_data]))
  exact ⟨_, r2, by simp [setPc], by simp [setPc, hij]⟩

/-- Where there is a cache that is rejected, one of two loads can fail because the other has removed it. -/
theorem C103_removed_twice (W : World R β) (bs : List β) (hbs : Rejected W bs) (i j : Nat) (hij : i ≠ j) :
    ∃ s, Reach W (start (some bs)) s ∧ s.pc j = .failed .fileNotFound ∧ s.pc i = .openWrite := by
  obtain ⟨p, hp, hq, hr⟩ := hbs
  obtain ⟨n, hn⟩ := solo_reject W i 0 (fresh (some bs)) rfl p hp hq hr
  obtain ⟨n2, hn2⟩ := solo_reject W j 0 (fresh (some bs)) rfl p hp hq hr
  have r1 : Reach W (start (some bs)) ⟨fresh (some bs), setPc (fun _ => .check) i .remove⟩ := reach_solo W i n (s := start (some bs)) hn
  have r2 := r1.trans (reach_solo W j n2 (s := ⟨fresh (some bs), setPc (fun _ => .check) i .remove⟩) (d' := fresh (some bs)) (p' := .remove)
    (by dsimp only; rw [setPc_other _ hij.symm]; exact hn2))
  have r3 := r2.trans (reach_solo W i 1 (s := ⟨fresh (some bs), setPc (setPc (fun _ => .check) i .remove) j .remove⟩) (d' := { fresh (some bs) with entry := none }) (p' := .openWrite)
    (by simp [solo, act, setPc_other _ hij, setPc_same, fresh]))
  have r4 := r3.trans (reach_solo W j 1 (s := ⟨{ fresh (some bs) with entry := none }, setPc (setPc (setPc (fun _ => .check) i .remove) j .remove) i .openWrite⟩)
    (d' := { fresh (some bs) with entry := none }) (p' := .failed .fileNotFound)
    (by simp [solo, act, setPc_other _ hij.symm, setPc_same]))
  exact ⟨_, r4, by simp [setPc], by simp [setPc, hij]⟩

/-- A program that is killed after it has written `m` bytes of the cache leaves these; if unpickling them raises an exception that is not caught, then from there on no load ever ends, and the
cache never changes. -/
theorem C103_killed (W : World R β) (i m : Nat) (hm : m ≤ (W.dump i).length) :
    ∃ s, Reach W (start none) s ∧ s.pc i = .killed ∧ (∀ j, j ≠ i → s.pc j = .check) ∧ s.disk.entry = some 0 ∧ s.disk.data 0 = (W.dump i).take m ∧
      (CutShort W ((W.dump i).take m) → ∀ s', Reach W s s' → s'.disk = s.disk ∧ ∀ j r, s'.pc j ≠ .done r) := by
  let d1 : Disk β := { (fresh (β := β) none).put 0 [] with entry := some 0, next := 1 }
  obtain ⟨d', h1, h2, _, h3, _⟩ := solo_write W i 0 d1 rfl m hm
  have r1 : Reach W (start none) ⟨d', setPc (fun _ => .check) i (.writing 0 m)⟩ := by
    refine reach_solo W i (2 + m) (s := start none) ?_
    rw [solo_add]
    have : solo W i 2 ((start (R := R) (β := β) none).disk, (start (R := R) (β := β) none).pc i) = (d1, .writing 0 0) := by simp [solo, act, start, fresh, d1]
    rw [this, h1]
  have r2 := r1.tail (Step.kill (W := W) i _)
  have hk : ∀ j, j ≠ i → setPc (setPc (fun _ => Pc.check) i (.writing 0 m)) i .killed j = (.check : Pc R β) := by
    intro j hj
    rw [setPc_other _ hj, setPc_other _ hj]
  refine ⟨_, r2, setPc_same _ _ _, hk, h2, h3, ?_⟩
  intro hc s' hs'
  have hst : ∀ j, StuckPc d' (setPc (setPc (fun _ => Pc.check) i (.writing 0 m)) i .killed j : Pc R β) := by
    intro j
    by_cases hj : j = i
    · rw [hj, setPc_same]; trivial
    · rw [hk j hj]; trivial
  obtain ⟨h4, h5⟩ := reach_stuck W hs' 0 h2 (by show CutShort W (d'.data 0); rw [h3]; exact hc) hst
  refine ⟨h4, ?_⟩
  intro j r he
  have := h5 j
  rw [he] at this
  exact this

/-- Two programs that begin where there is no cache can leave any mixture of the bytes they pickle (for pickles of the same length), both ending well; if it unpickles, the next load gives
what it unpickles to. -/
theorem C103_mixed (W : World R β) (i j l : Nat) (hij : i ≠ j) (hil : l ≠ i) (hjl : l ≠ j) (bs : List β) (hi : (W.dump i).length = bs.length) (hj : (W.dump j).length = bs.length)
    (hbs : ∀ (o : Nat) (b : β), bs[o]? = some b → (W.dump i)[o]? = some b ∨ (W.dump j)[o]? = some b) :
    ∃ s, Reach W (start none) s ∧ s.pc i = .done W.value ∧ s.pc j = .done W.value ∧ s.disk.entry = some 0 ∧ s.disk.data 0 = bs ∧
      ∀ r, W.judge bs = some (.accept r) → (∀ q, q <+: bs → q ≠ bs → W.judge q = none) →
        ∃ s', Relation.ReflTransGen (Alone W l) s s' ∧ s'.pc l = .done r := by
  obtain ⟨s, hr, he, hd, hpi, hpj, ho⟩ := mix_reach W i j hij bs hi hj hbs bs.length (le_refl _)
  rw [List.take_length] at hd
  have r1 : Reach W s ⟨s.disk, setPc s.pc i (.done W.value)⟩ := reach_solo W i 1 (by simp [solo, act, hpi, ← hi])
  have r2 := r1.trans (reach_solo W j 1 (s := ⟨s.disk, setPc s.pc i (.done W.value)⟩) (d' := s.disk) (p' := .done W.value)
    (by simp [solo, act, setPc_other _ hij.symm, hpj, ← hj]))
  refine ⟨_, hr.trans r2, ?_, setPc_same _ _ _, he, hd, ?_⟩
  · show setPc _ j _ i = _
    rw [setPc_other _ hij]
    exact setPc_same _ _ _
  · intro r h1 h2
    obtain ⟨n, hn⟩ := solo_accept W l 0 s.disk he r (by rw [hd]; exact h1) (by rw [hd]; exact h2)
    have := solo_alone W l n s.disk (setPc (setPc s.pc i (.done W.value)) j (.done W.value))
    rw [setPc_other _ hjl, setPc_other _ hil, ho l hil hjl, hn] at this
    exact ⟨_, this, setPc_same _ _ _⟩

/-! ### The hypotheses are met -/

/-- A pickle ends with 9; what it unpickles to is the sum of the rest; programs with an odd number write the same collection in another order. -/
def toy : World Nat Nat where
  judge bs := if bs.getLast? = some 9 then some (.accept bs.sum) else if bs.getLast? = some 0 then some .caught else none
  atEnd _ := false
  value := 12
  dump i := if i % 2 = 0 then [1, 2, 9] else [2, 1, 9]
  zero := 0

theorem toy_pickles : Pickles toy := by
  have key : ∀ (l : List Nat), l = [1, 2, 9] ∨ l = [2, 1, 9] → toy.judge l = some (.accept 12) ∧ ∀ p, p <+: l → p ≠ l → toy.judge p = none := by
    intro l hl
    rcases hl with rfl | rfl
    · refine ⟨by decide, ?_⟩
      intro p hp hne
      have hm : p ∈ [1, 2, 9].inits := (List.mem_inits _ _).2 hp
      simp only [List.inits, List.map_cons, List.map_nil, List.mem_cons, List.not_mem_nil, or_false] at hm
      rcases hm with rfl | rfl | rfl | rfl
      · decide
      · decide
      · decide
      · exact absurd rfl hne
    · refine ⟨by decide, ?_⟩
      intro p hp hne
      have hm : p ∈ [2, 1, 9].inits := (List.mem_inits _ _).2 hp
      simp only [List.inits, List.map_cons, List.map_nil, List.mem_cons, List.not_mem_nil, or_false] at hm
      rcases hm with rfl | rfl | rfl | rfl
      · decide
      · decide
      · decide
      · exact absurd rfl hne
  intro i
  refine key (toy.dump i) ?_
  show (if i % 2 = 0 then [1, 2, 9] else [2, 1, 9]) = _ ∨ (if i % 2 = 0 then [1, 2, 9] else [2, 1, 9]) = _
  split
  · exact .inl rfl
  · exact .inr rfl

example : Intact toy (fresh (some [2, 1, 9])) := ⟨0, 1, rfl, rfl⟩
example : Rejected toy [4, 0, 7] := ⟨[4, 0], ⟨[7], rfl⟩, by
  intro q hq hne
  have hm : q ∈ [4, 0].inits := (List.mem_inits _ _).2 hq
  simp only [List.inits, List.map_cons, List.map_nil, List.mem_cons, List.not_mem_nil, or_false] at hm
  rcases hm with rfl | rfl | rfl
  · decide
  · decide
  · exact absurd rfl hne, .inl (by decide)⟩
example : CutShort toy ((toy.dump 0).take 2) := ⟨by
  intro q hq
  have hm : q ∈ [1, 2].inits := (List.mem_inits _ _).2 hq
  simp only [List.inits, List.map_cons, List.map_nil, List.mem_cons, List.not_mem_nil, or_false] at hm
  rcases hm with rfl | rfl | rfl <;> decide, rfl⟩
example : toy.judge [] = none ∧ toy.atEnd [] = false := by decide

/-- The same pickles, of which only the number of bytes is looked at: no mixture is taken for another collection. -/
def count : World Nat Nat := { toy with judge := fun bs => if bs.getLast? = some 9 then some (.accept bs.length) else none, value := 3 }

example : ∀ bs r, Mixture count ((none : Option (List Nat)).getD []) bs → count.judge bs = some (.accept r) → r = count.value := by
  intro bs r hm hr
  have hr : (if bs.getLast? = some 9 then some (Verdict.accept bs.length) else none) = some (.accept r) := hr
  split at hr
  · rename_i h9
    cases hr
    rw [List.getLast?_eq_getElem?] at h9
    show bs.length = 3
    rcases hm _ _ h9 with h | h | ⟨j, h⟩
    · cases h
    · simp at h
    · have h : (if j % 2 = 0 then [1, 2, 9] else [2, 1, 9])[bs.length - 1]? = some 9 := h
      have key : ∀ o : Nat, (if j % 2 = 0 then [1, 2, 9] else [2, 1, 9])[o]? = some 9 → o = 2 := by
        intro o ho
        match o, ho with
        | 0, ho => split at ho <;> simp at ho
        | 1, ho => split at ho <;> simp at ho
        | 2, _ => rfl
        | o + 3, ho => split at ho <;> simp at ho
      have := key _ h
      omega
  · cases hr

/-- Although what is pickled unpickles to the collection, a load can give a wrong one, without any exception: programs 0 and 1 write [1, 2, 9] and [2, 1, 9] at once and leave [2, 2, 9]. -/
theorem C103_wrong : ∃ s, Reach toy (start none) s ∧ s.pc 0 = .done toy.value ∧ s.pc 1 = .done toy.value ∧ s.pc 2 = .done 13 ∧ toy.value ≠ 13 := by
  obtain ⟨s, hr, h0, h1, he, hd, hl⟩ := C103_mixed toy 0 1 2 (by decide) (by decide) (by decide) [2, 2, 9] rfl rfl (by
    intro o b hb
    match o, hb with
    | 0, hb => exact .inr hb
    | 1, hb => exact .inl hb
    | 2, hb => exact .inl hb
    | o + 3, hb => simp at hb)
  obtain ⟨s', h2, h3⟩ := hl 13 (by decide) (by
    intro q hq hne
    have hm : q ∈ [2, 2, 9].inits := (List.mem_inits _ _).2 hq
    simp only [List.inits, List.map_cons, List.map_nil, List.mem_cons, List.not_mem_nil, or_false] at hm
    rcases hm with rfl | rfl | rfl | rfl
    · decide
    · decide
    · decide
    · exact absurd rfl hne)
  have ha := alone_reach toy 2 h2
  exact ⟨s', hr.trans ha.1, by rw [ha.2 0 (by decide), h0], by rw [ha.2 1 (by decide), h1], h3, by decide⟩

end Verif.Props.CacheRace
