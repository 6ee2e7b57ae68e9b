import Verif.Model.CiteText
import Verif.Props.CiteParse

/-! # C83: the texts of a citation -/
set_option autoImplicit false
set_option linter.unusedSimpArgs false
namespace Verif.Props.CiteText
open Verif.Py Verif.Py.Regex Verif.Model.Citation Verif.Model.CiteParse Verif.Model.CiteText Verif.Lemmas.CiteParse Verif.Props.CiteParse

/-- Those of some values that are there and not empty. -/
def given (l : List (Option Str)) : List Str := l.filterMap (fun o => o.bind (fun s => if s = [] then none else some s))

theorem loop_eq (l : List (Option Str)) (ret : Str) : extraLoop (l.map some) ret = some (ret ++ (given l).flatMap (· ++ ", ".toList)) := by
  induction l generalizing ret with
  | nil => simp [extraLoop, given]
  | cons o l ih =>
    cases o with
    | none =>
      show extraLoop (l.map some) ret = _
      rw [ih]; rfl
    | some v =>
      show (if v = [] then extraLoop (l.map some) ret else extraLoop (l.map some) (ret ++ (v ++ ", ".toList))) = _
      by_cases hv : v = []
      · rw [if_pos hv, ih]
        have : given (some v :: l) = given l := by simp [given, hv]
        rw [this]
      · rw [if_neg hv, ih]
        have : given (some v :: l) = v :: given l := by simp [given, hv]
        rw [this]; simp

theorem flat_join (l : List Str) : l ≠ [] → l.flatMap (· ++ ", ".toList) = Str.join ", ".toList l ++ ", ".toList := by
  induction l with
  | nil => intro h; exact absurd rfl h
  | cons x l ih =>
    intro _
    cases l with
    | nil => simp [Str.join]
    | cons y l =>
      rw [List.flatMap_cons, ih (by simp), Str.join_cons _ x (y :: l) (by simp)]; simp

theorem given_ne (l : List (Option Str)) : ∀ x ∈ given l, x ≠ [] := by
  intro x hx
  unfold given at hx
  obtain ⟨o, -, ho⟩ := List.mem_filterMap.1 hx
  cases o with
  | none => cases ho
  | some s =>
    simp only [Option.bind_some] at ho
    by_cases h : s = []
    · rw [if_pos h] at ho; cases ho
    · rw [if_neg h] at ho
      obtain rfl := Option.some.inj ho
      exact h

theorem extra_eq (p : Parsed) (v q d m : Option Str) (hv : p.cite.V = some v) (hq : p.cite.P = some q) (hd : p.doi = some d) (hm : p.cite.misc = some m) :
    extra p = some (Str.join ", ".toList (given [v, q, d, m])) := by
  unfold extra
  rw [hv, hq, hd, hm, show [some v, some q, some d, some m] = [v, q, d, m].map some from rfl, loop_eq]
  dsimp only
  rw [List.nil_append]
  by_cases h : given [v, q, d, m] = []
  · rw [h]; rfl
  · rw [flat_join _ h]
    obtain ⟨x, r, e⟩ := List.exists_cons_of_ne_nil h
    have hx : x ≠ [] := given_ne _ x (by rw [e]; simp)
    have hl : 1 ≤ (Str.join ", ".toList (given [v, q, d, m])).length := by
      rw [e]
      have : 1 ≤ x.length := List.length_pos_of_ne_nil hx
      cases r with
      | nil => simpa [Str.join] using this
      | cons y r => rw [Str.join_cons _ _ _ (by simp)]; simp only [List.length_append]; omega
    have h2 : (", ".toList).length = 2 := rfl
    rw [if_pos (by rw [List.length_append, h2]; omega), List.length_append, h2, Nat.add_sub_cancel, List.take_left]

/-- **C83.** For every string: the citation made from it keeps the string, and `Extra()` is the values of `V`, `P`, `DOI` and `misc` that are there, in this order,
separated by commas. -/
theorem C83_extra_partial (C : Chars) (s : Str) : ∃ p v q d m, parseWos C s = some p ∧ strText p = s ∧
    p.cite.V = some v ∧ p.cite.P = some q ∧ p.doi = some d ∧ p.cite.misc = some m ∧ extra p = some (Str.join ", ".toList (given [v, q, d, m])) := by
  obtain ⟨p, h1, h2, -, -, -, h6, h7, h8, -, h10⟩ := parse_fields C s
  exact ⟨p, _, _, _, _, h1, h2, h6, h7, h10, h8, extra_eq p _ _ _ _ h6 h7 h10 h8⟩

/-- **C83 is false of the code** for Scopus citations: they have no attribute `DOI`, and `Extra()` raises. -/
theorem C83_scopus (C : Chars) (s : Str) : extra (parseScopus C s) = none := by
  have hd : (parseScopus C s).doi = none := by
    unfold parseScopus
    split
    · rfl
    · dsimp only
      split <;> rfl
  unfold extra
  have : ∀ (a b m : Option (Option Str)), extraLoop [a, b, none, m] [] = none := by
    intro a b m
    rcases a with _ | (_ | a) <;> rcases b with _ | (_ | b) <;> simp [extraLoop] <;> (repeat' split) <;> simp_all
  rw [hd, this]

/-- **C83.** For a citation written as author, year, journal, volume, page and DOI (any of author, volume, page and DOI may be missing) `Extra()` is what comes after the journal,
without the word `DOI`, and `allButDOI()` is the rest: it does not depend on the DOI. -/
theorem C83_written (C : Chars) (s : Str) (a : Option Str) (n : Nat) (j : Str) (v p d : Option Str) (hn : n < 100000)
    (ha : ∀ w, a = some w → ∃ c d t, w = c :: d :: t ∧ authStart c = true ∧ ',' ∉ w)
    (hj : j ≠ [] ∧ ',' ∉ j) (hv : ∀ w, v = some w → w ≠ [] ∧ ',' ∉ w) (hp : ∀ w, p = some w → w ≠ [] ∧ ',' ∉ w) (hd : ∀ w, d = some w → w ≠ [] ∧ '\n' ∉ w)
    (hs : C.upper s = lead a ++ (showNat n ++ (", ".toList ++ (j ++ (tagged "V".toList v ++ (tagged "P".toList p ++ tagged "DOI ".toList d)))))) :
    ∃ c, parseWos C s = some c ∧
      extra c = some (Str.join ", ".toList (v.toList.map ('V' :: ·) ++ p.toList.map ('P' :: ·) ++ d.toList)) ∧
      allButDOI c = Str.join ", ".toList (idText c :: (v.toList.map ('V' :: ·) ++ p.toList.map ('P' :: ·))) := by
  obtain ⟨c, h1, h2, -, -, -, h6, h7, h8, -, h10⟩ := parse_fields C s
  obtain ⟨-, -, -, r4, r5, r6, r7⟩ := read_parts a n j v p d hn ha hj hv hp hd
  rw [← hs] at r4 r5 r6 r7
  rw [r4] at h6
  rw [r5] at h7
  rw [r7] at h8
  rw [r7, if_pos rfl, r6] at h10
  refine ⟨c, h1, ?_, ?_⟩
  · rw [extra_eq c _ _ _ _ h6 h7 h10 h8]
    congr 2
    cases v with
    | none =>
      cases p with
      | none =>
        cases d with
        | none => rfl
        | some w => simp [given, (hd w rfl).1]
      | some q =>
        cases d with
        | none => rfl
        | some w => simp [given, (hd w rfl).1]
    | some v =>
      cases p with
      | none =>
        cases d with
        | none => rfl
        | some w => simp [given, (hd w rfl).1]
      | some q =>
        cases d with
        | none => rfl
        | some w => simp [given, (hd w rfl).1]
  · unfold Verif.Model.CiteText.allButDOI Verif.Model.NodeInfo.allButDOI idText
    rw [h6, h7, h8]
    cases v <;> cases p <;> simp [Str.join]

/-- **C83 is false of the code** when something else stands before the DOI: `Extra()` has neither of them. -/
theorem C83_extra_lost :
    (parseWos ascii "SMITH J, 1998, NATURE, UNDER REVIEW, DOI 10.1/x".toList).bind extra = some ",".toList := by decide +kernel

/-! ## Citations -/

example : (parseWos ascii "Nunez R., 1998, MATH COGNITION, V4, P85, DOI 10.1080/135467998387343".toList).bind extra =
    some "V4, P85, 10.1080/135467998387343".toList := by decide +kernel
example : (parseWos ascii "Nunez R., 1998, MATH COGNITION, V4, P85, DOI 10.1080/135467998387343".toList).map Verif.Model.CiteText.allButDOI =
    some "Nunez R, 1998, MATH COGNITION, V4, P85".toList := by decide +kernel
example : ascii.upper "Nunez R., 1998, MATH COGNITION, V4, DOI 10.1".toList =
    lead (some "NUNEZ R.".toList) ++ (showNat 1998 ++ (", ".toList ++ ("MATH COGNITION".toList ++ (tagged "V".toList (some "4".toList) ++
      (tagged "P".toList none ++ tagged "DOI ".toList (some "10.1".toList)))))) := by decide +kernel

end Verif.Props.CiteText
