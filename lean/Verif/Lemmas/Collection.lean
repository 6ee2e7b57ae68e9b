import Verif.Model.Collection
import Verif.Spec.Collection

set_option autoImplicit false
set_option linter.unusedSectionVars false
set_option linter.unusedSimpArgs false

namespace Verif.Model.Coll
open Verif.Py Verif.Spec

variable {α κ ε : Type} [DecidableEq α] [DecidableEq κ]

/-! ## chunk and split -/

/-- What the chunk loop knows after the elements `l` have been consumed. -/
structure ChunkInv (cls name : String) (maxSize : Int) (l : List α) (st : List (Coll α κ ε) × Int) : Prop where
  cover : (st.1.map Coll.items).flatten = l
  full : ∀ c ∈ st.1.dropLast, (c.items.length : Int) = max maxSize 1
  last : (st.1 = [] ∧ st.2 = maxSize + 1) ∨
    ∃ last, st.1.getLast? = some last ∧ (last.items.length : Int) = st.2 ∧ 1 ≤ st.2 ∧ st.2 ≤ max maxSize 1
  meta_ : ∀ (i : Nat) (c : Coll α κ ε), st.1[i]? = some c → c.name = "Chunk-" ++ toString i ++ "-of-" ++ name ∧ c.cls = cls ∧
    c.bad = false ∧ c.errors = []

theorem chunkInv_init (cls name : String) (maxSize : Int) :
    ChunkInv cls name maxSize ([] : List α) (([], maxSize + 1) : List (Coll α κ ε) × Int) :=
  ⟨by simp, by simp, Or.inl ⟨rfl, rfl⟩, by simp⟩

theorem chunkStep_inv {cls name : String} {tyName : α → String} {maxSize : Int} {l : List α} {x : α}
    {st : List (Coll α κ ε) × Int} (h : ChunkInv cls name maxSize l st) (hx : x ∉ l) :
    ∃ st', chunkStep cls name tyName maxSize st x = some st' ∧ ChunkInv cls name maxSize (l ++ [x]) st' := by
  obtain ⟨cs, n⟩ := st
  unfold chunkStep
  by_cases hc : n ≥ maxSize
  · rw [if_pos hc]
    refine ⟨_, rfl, ?_, ?_, ?_, ?_⟩
    · simp [← h.cover, fresh, PSet.ofList, PSet.add]
    · intro c hcm
      simp only [List.dropLast_concat] at hcm
      rcases h.last with ⟨h0, _⟩ | ⟨last, hl, hlen, h1, h2⟩
      · simp at h0; simp [h0] at hcm
      · have hcs : cs = cs.dropLast ++ [last] := by
          have := List.dropLast_append_getLast? last (by simpa using hl)
          exact this.symm
        rw [hcs, List.mem_append] at hcm
        rcases hcm with hcm | hcm
        · exact h.full c hcm
        · simp at hcm; subst hcm
          simp only at hlen h1 h2
          omega
    · right
      refine ⟨_, List.getLast?_concat .., ?_, ?_, ?_⟩
      · simp [fresh, PSet.ofList, PSet.add]
      · simp
      · simp only; omega
    · intro i c hi
      simp only [] at hi
      rw [List.getElem?_append] at hi
      split at hi
      · exact h.meta_ i c hi
      · rename_i hlt
        have : i - cs.length = 0 := by
          by_contra hne
          have : 1 ≤ i - cs.length := by omega
          rw [List.getElem?_eq_none (by simpa using this)] at hi
          simp at hi
        rw [this] at hi
        simp at hi
        have hi' : i = cs.length := by omega
        subst hi'
        subst hi
        simp [fresh]
  · rw [if_neg hc]
    rcases h.last with ⟨h0, h1⟩ | ⟨last, hl, hlen, h1, h2⟩
    · simp only at h0 h1; omega
    · simp only at hl hlen h1 h2 hc
      rw [hl]
      have hcs : cs = cs.dropLast ++ [last] := (List.dropLast_append_getLast? last (by simpa using hl)).symm
      have hxl : x ∉ last.items := by
        intro hm
        apply hx
        rw [← h.cover]
        simp only
        rw [hcs]
        simp [hm]
      have hadd : PSet.add last.items x = last.items ++ [x] := by simp [PSet.add, hxl]
      refine ⟨_, rfl, ?_, ?_, ?_, ?_⟩
      · rw [← h.cover]
        simp only
        conv_rhs => rw [hcs]
        simp [hadd]
      · intro c hcm
        simp only [List.dropLast_concat] at hcm
        exact h.full c hcm
      · right
        refine ⟨_, List.getLast?_concat .., ?_, ?_, ?_⟩
        · simp [hadd]; omega
        · simp only; omega
        · simp only; omega
      · intro i c hi
        simp only at hi
        have key := h.meta_ i
        simp only at key
        rw [hcs] at key
        rw [List.getElem?_append] at hi key
        split at hi
        · rename_i hlt; simp only [hlt, if_true] at key; exact key c hi
        · rename_i hlt
          simp only [hlt, if_false] at key
          have : i - cs.dropLast.length = 0 := by
            by_contra hne
            have : 1 ≤ i - cs.dropLast.length := by omega
            rw [List.getElem?_eq_none (by simpa using this)] at hi
            simp at hi
          rw [this] at hi key
          simp at hi key
          subst hi
          simpa using key

theorem chunk_fold {cls name : String} {tyName : α → String} {maxSize : Int} (r l : List α)
    (st : List (Coll α κ ε) × Int) (h : ChunkInv cls name maxSize l st) (hn : (l ++ r).Nodup) :
    ∃ st', r.foldlM (chunkStep cls name tyName maxSize) st = some st' ∧ ChunkInv cls name maxSize (l ++ r) st' := by
  induction r generalizing l st with
  | nil => exact ⟨st, rfl, by simpa using h⟩
  | cons x r ih =>
    have hx : x ∉ l := by
      rw [List.nodup_append] at hn
      intro hx; exact hn.2.2 x hx x (by simp) rfl
    obtain ⟨st', h1, h2⟩ := chunkStep_inv (tyName := tyName) h hx
    obtain ⟨st'', h3, h4⟩ := ih (l ++ [x]) st' h2 (by simpa using hn)
    refine ⟨st'', ?_, by simpa using h4⟩
    rw [List.foldlM_cons, h1]
    exact h3

theorem ChunkInv.partition {cls name : String} {maxSize : Int} {l : List α} {st : List (Coll α κ ε) × Int}
    (h : ChunkInv cls name maxSize l st) :
    IsBlockPartition (max maxSize 1).toNat (st.1.map Coll.items) l := by
  have hall : ∀ c ∈ st.1, 1 ≤ c.items.length ∧ (c.items.length : Int) ≤ max maxSize 1 := by
    intro c hc
    rcases h.last with ⟨h0, _⟩ | ⟨last, hl, hlen, h1, h2⟩
    · simp [h0] at hc
    · have hcs : st.1 = st.1.dropLast ++ [last] := (List.dropLast_append_getLast? last (by simpa using hl)).symm
      rw [hcs, List.mem_append] at hc
      rcases hc with hc | hc
      · have := h.full c hc; omega
      · simp at hc; subst hc; omega
  refine ⟨?_, ?_, ?_, ?_⟩
  · rw [h.cover]
  · intro p hp
    obtain ⟨c, hc, rfl⟩ := List.mem_map.1 hp
    intro h0
    have := (hall c hc).1
    simp [h0] at this
  · intro p hp
    obtain ⟨c, hc, rfl⟩ := List.mem_map.1 hp
    have := (hall c hc).2
    omega
  · intro p hp
    rw [← List.map_dropLast] at hp
    obtain ⟨c, hc, rfl⟩ := List.mem_map.1 hp
    have := h.full c hc
    omega

theorem pop_ok {choice : Nat} {c c' : Coll α κ ε} {x : α} (h : c.pop choice = .ok (x, c')) :
    x ∈ c.items ∧ c' = { c with items := PSet.discard c.items x } := by
  unfold pop at h
  split at h
  · simp at h
  · rename_i y hy
    simp only [Except.ok.injEq, Prod.mk.injEq] at h
    obtain ⟨rfl, rfl⟩ := h
    exact ⟨List.mem_of_getElem? hy, rfl⟩

theorem pop_error {choice : Nat} {c : Coll α κ ε} {e : CollErr} (h : c.pop choice = .error e) :
    c.items = [] ∧ e = .keyError := by
  unfold pop at h
  split at h
  · rename_i hn
    simp only [Except.error.injEq] at h
    refine ⟨?_, h.symm⟩
    rw [List.getElem?_eq_none_iff] at hn
    by_contra hne
    have : 0 < c.items.length := List.length_pos_iff.2 hne
    have := Nat.mod_lt choice this
    omega
  · simp at h

theorem discard_perm {l : List α} (hn : l.Nodup) {x : α} (hx : x ∈ l) : (x :: PSet.discard l x).Perm l := by
  have h : PSet.discard l x = l.erase x := by
    rw [hn.erase_eq_filter]
    unfold PSet.discard
    congr 1; funext y; by_cases h : y = x <;> simp [h]
  rw [h]
  exact (List.perm_cons_erase hx).symm

theorem splitLoop_spec {cls name : String} {tyName : α → String} {maxSize : Int} {sched : Nat → Nat}
    (fuel n : Nat) (c : Coll α κ ε) (hcls : c.cls = cls) (hname : c.name = name)
    (l : List α) (st : List (Coll α κ ε) × Int) (hinv : ChunkInv cls name maxSize l st)
    (hn : (l ++ c.items).Nodup) (hf : c.items.length ≤ fuel) :
    ∃ l' chunks n', l'.Perm c.items ∧ ChunkInv cls name maxSize (l ++ l') (chunks, n') ∧
      splitLoop tyName maxSize sched fuel n c st =
        some (chunks, { c with items := [], bad := false, errors := [], name := "Emptied-" ++ name }) := by
  induction fuel generalizing n c l st with
  | zero =>
    have h0 : c.items = [] := List.eq_nil_of_length_eq_zero (by omega)
    refine ⟨[], st.1, st.2, by simp [h0], by simpa using hinv, ?_⟩
    unfold splitLoop
    cases hp : c.pop (sched n) with
    | error e => simp [clear, hname]
    | ok p => obtain ⟨x, c'⟩ := p; have := (pop_ok hp).1; simp [h0] at this
  | succ fuel ih =>
    unfold splitLoop
    cases hp : c.pop (sched n) with
    | error e =>
      have h0 := (pop_error hp).1
      refine ⟨[], st.1, st.2, by simp [h0], by simpa using hinv, ?_⟩
      simp [clear, hname]
    | ok p =>
      obtain ⟨x, c'⟩ := p
      obtain ⟨hx, hc'⟩ := pop_ok hp
      have hnc : c.items.Nodup := (List.nodup_append.1 hn).2.1
      have hxl : x ∉ l := by
        intro hxl; exact (List.nodup_append.1 hn).2.2 x hxl x hx rfl
      have hperm := discard_perm hnc hx
      obtain ⟨st', h1, h2⟩ := chunkStep_inv (tyName := tyName) hinv hxl
      have hc'i : c'.items = PSet.discard c.items x := by rw [hc']
      have hlen : c'.items.length + 1 = c.items.length := by
        rw [hc'i]; have := hperm.length_eq; simpa using this
      have hn' : ((l ++ [x]) ++ c'.items).Nodup := by
        rw [hc'i]
        have : (l ++ [x] ++ PSet.discard c.items x).Perm (l ++ c.items) := by
          rw [List.append_assoc]
          exact List.Perm.append_left l (by simpa using hperm)
        exact this.nodup_iff.2 hn
      obtain ⟨l', chunks, n', hl', hinv', hres⟩ := ih (n + 1) c' (by rw [hc']; exact hcls) (by rw [hc']; exact hname)
        (l ++ [x]) st' h2 hn' (by omega)
      refine ⟨x :: l', chunks, n', ?_, by simpa using hinv', ?_⟩
      · rw [hc'i] at hl'
        exact (List.Perm.cons x hl').trans hperm
      · simp only [hcls, hname, h1]
        rw [hres, hc']; simp [hcls]

end Verif.Model.Coll
