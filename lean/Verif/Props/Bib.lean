import Verif.Model.Bib
import Verif.Spec.Bib

/-!
# C35: BibTeX values
-/
set_option autoImplicit false
set_option linter.unusedSimpArgs false
namespace Verif.Props.Bib
open Verif.Py Verif.Model.Bib Verif.Spec.Bib

theorem join_intercalate (sep : Str) (l : List Str) : Str.join sep l = List.intercalate sep l := by
  induction l with
  | nil => simp [Str.join, List.intercalate]
  | cons a l ih =>
    cases l with
    | nil => simp [Str.join, List.intercalate]
    | cons b l => rw [Str.join, ih]; simp [List.intercalate, List.intersperse]

/-- C35, the text of a value: a string is its own text, the members of a list have ` and ` in between, any other value has its `str`. -/
theorem C35_text (s : Str) (l : List Str) : (Value.str s).text = s ∧ (Value.other s).text = s ∧ (Value.list l).text = List.intercalate " and ".toList l :=
  ⟨rfl, rfl, join_intercalate _ _⟩

/-! ## `replace` of one character -/

theorem splitGo_char (c : Char) (acc s : Str) (new : Str) :
    Str.join new (Str.splitGo [c] 0 acc s) = acc ++ s.flatMap (fun x => if x = c then new else [x]) := by
  induction s generalizing acc with
  | nil => simp [Str.splitGo, Str.join]
  | cons x s ih =>
    rw [Str.splitGo]
    by_cases h : x = c
    · subst h
      rw [if_pos (by simp), Str.join_cons _ _ _ (Str.splitGo_ne_nil _ _ _ _)]
      simp [ih]
    · rw [if_neg (by simpa using Ne.symm h), ih]
      simp [h]

theorem replace_char (c : Char) (new s : Str) : Str.replace [c] new s = s.flatMap (fun x => if x = c then new else [x]) := by
  unfold Str.replace Str.split
  rw [splitGo_char]
  rfl

theorem replace_quotes (s : Str) : Str.replace "\"".toList [] s = withoutQuotes s := by
  show Str.replace ['"'] [] s = _
  rw [replace_char]
  unfold withoutQuotes
  induction s with
  | nil => rfl
  | cons c s ih =>
    by_cases h : c = '"' <;> simp [h, ih]

theorem replace_braces (s : Str) : Str.replace "}".toList "\\}".toList (Str.replace "{".toList "\\{".toList s) = escaped s := by
  show Str.replace ['}'] ['\\', '}'] (Str.replace ['{'] ['\\', '{'] s) = _
  rw [replace_char, replace_char]
  unfold escaped
  rw [List.flatMap_assoc]
  congr 1
  funext c
  by_cases h : c = '{'
  · subst h; rfl
  · by_cases h2 : c = '}'
    · subst h2; rfl
    · simp [h, h2]

theorem mem_withoutQuotes (s : Str) : '"' ∉ withoutQuotes s := by unfold withoutQuotes; simp

/-! ## The reading of a value is unique -/

theorem quote_append (p q v w : Str) (hp : '"' ∉ p) (hq : '"' ∉ q) (h : p ++ '"' :: v = q ++ '"' :: w) : p = q ∧ v = w := by
  induction p generalizing q with
  | nil =>
    cases q with
    | nil => simpa using h
    | cons c q => simp at h; simp [← h.1] at hq
  | cons c p ih =>
    cases q with
    | nil => simp at h; simp [h.1] at hp
    | cons d q =>
      simp at h hp hq
      obtain ⟨e1, e2⟩ := ih q hp.2 hq.2 h.2
      exact ⟨by rw [h.1, e1], e2⟩

theorem reads_ne (v : Str) (ps : List Str) (h : Reads v ps) : ps ≠ [] := by cases h <;> simp

/-- What a value stands for is determined by the value. -/
theorem C35_reading_unique (v : Str) (ps qs : List Str) (h : Reads v ps) (h' : Reads v qs) : ps = qs := by
  induction h generalizing qs with
  | quoted p hp =>
    generalize hv : "\"".toList ++ p ++ "\"".toList = v at h'
    cases h' with
    | quoted q hq =>
      have := (quote_append p q [] [] hp hq (by simpa using hv)).1
      rw [this]
    | concat q w ps hq hr =>
      have := (quote_append p q [] (" # \"".toList ++ w) hp hq (by simpa using hv)).2
      simp at this
    | braced q => simp at hv
  | concat p v ps hp hr ih =>
    generalize hv : "\"".toList ++ p ++ "\" # \"".toList ++ v = w at h'
    cases h' with
    | quoted q hq =>
      have := (quote_append p q (" # \"".toList ++ v) [] hp hq (by simpa using hv)).2
      simp at this
    | concat q w qs hq hr' =>
      obtain ⟨e1, e2⟩ := quote_append p q (" # \"".toList ++ v) (" # \"".toList ++ w) hp hq (by simpa using hv)
      have e3 : v = w := by simpa using e2
      subst e3
      rw [e1, ih _ hr']
    | braced q => simp at hv
  | braced p =>
    generalize hv : "{".toList ++ p ++ "}".toList = w at h'
    cases h' with
    | quoted q hq => simp at hv
    | concat q w qs hq hr' => simp at hv
    | braced q =>
      have : p = q := by simpa using hv
      rw [this]

/-! ## The pieces -/

theorem reads_join (ps : List Str) (hn : ps ≠ []) (h : ∀ p ∈ ps, '"' ∉ p) :
    Reads ("\"".toList ++ Str.join "\" # \"".toList ps ++ "\"".toList) ps := by
  induction ps with
  | nil => exact absurd rfl hn
  | cons p ps ih =>
    cases ps with
    | nil => exact .quoted p (h p (by simp))
    | cons q ps =>
      rw [Str.join_cons _ _ _ (by simp)]
      have := Reads.concat p _ (q :: ps) (h p (by simp)) (by
        have := ih (by simp) (fun x hx => h x (List.mem_cons_of_mem _ hx))
        rw [List.append_assoc] at this
        exact this)
      simpa [List.append_assoc] using this

theorem flatten_pieces (t : Str) (m k : Nat) : ((List.range k).map (fun i => (t.drop (i * m)).take m)).flatten = t.take (k * m) := by
  induction k with
  | zero => simp
  | succ k ih =>
    rw [List.range_succ, List.map_append, List.flatten_append, ih]
    simp only [List.map_cons, List.map_nil, List.flatten_cons, List.flatten_nil, List.append_nil]
    rw [Nat.succ_mul, List.take_add]

theorem pieces_nat (t : Str) (m : Nat) : pieces t m = (List.range (t.length / m)).map (fun i => (t.drop (i * m)).take m) := by
  unfold pieces
  have : (Int.fdiv (t.length : Int) (m : Int)).toNat = t.length / m := by
    rw [Int.fdiv_eq_ediv_of_nonneg _ (by omega)]
    norm_cast
  rw [this]
  rfl

/-- What is written for a text longer than the limit: the pieces stand for the text without its quotes, cut to a multiple of the limit, and each
has the length of the limit, unless there is none. -/
theorem long_reads (v : Value) (m : Nat) (hm : 0 < m) (hl : m < v.text.length) :
    ∃ out ps, bibFormatter v m = some out ∧ Reads out ps ∧
      ps.flatten = (withoutQuotes v.text).take ((withoutQuotes v.text).length / m * m) ∧ ∀ p ∈ ps, p.length ≤ m := by
  unfold bibFormatter
  simp only
  rw [if_pos (by omega), if_neg (by omega), replace_quotes, pieces_nat]
  have hf := flatten_pieces (withoutQuotes v.text) m ((withoutQuotes v.text).length / m)
  generalize hps : (List.range ((withoutQuotes v.text).length / m)).map (fun i => ((withoutQuotes v.text).drop (i * m)).take m) = ps at hf ⊢
  have hlen : ∀ p ∈ ps, p.length ≤ m := by
    intro p hp
    rw [← hps] at hp
    obtain ⟨i, -, rfl⟩ := List.mem_map.1 hp
    simp
    omega
  have hq : ∀ p ∈ ps, '"' ∉ p := by
    intro p hp hc
    rw [← hps] at hp
    obtain ⟨i, -, rfl⟩ := List.mem_map.1 hp
    exact mem_withoutQuotes v.text (List.mem_of_mem_drop (List.mem_of_mem_take hc))
  by_cases hn : ps = []
  · subst hn
    refine ⟨_, [[]], rfl, .quoted [] (by simp), ?_, by simp⟩
    rw [← hf]; rfl
  · exact ⟨_, ps, rfl, reads_join ps hn hq, hf, hlen⟩

/-- C35 for a value within the limit: it is written whole, in quotes, or escaped and in braces when it has quotes. -/
theorem C35_short (v : Value) (m : Int) (hl : (v.text.length : Int) ≤ m) :
    ∃ out, bibFormatter v m = some out ∧ Reads out [if '"' ∈ v.text then escaped v.text else v.text] := by
  unfold bibFormatter
  simp only
  rw [if_neg (by omega)]
  by_cases h : '"' ∈ v.text
  · rw [if_neg (by simpa using h), replace_braces, if_pos h]
    exact ⟨_, rfl, .braced _⟩
  · rw [if_pos h, if_neg h]
    exact ⟨_, rfl, .quoted _ h⟩

/-- C35, what holds for a value over the limit: no piece is longer than the limit, and the whole text is there if its length (without quotes) is
a multiple of the limit. Missing: other lengths, see `C35_truncates`. -/
theorem C35_whole_partial (v : Value) (m : Nat) (hm : 0 < m) (hl : m < v.text.length) (hd : m ∣ (withoutQuotes v.text).length) :
    ∃ out ps, bibFormatter v m = some out ∧ Reads out ps ∧ ps.flatten = withoutQuotes v.text ∧ ∀ p ∈ ps, p.length ≤ m := by
  obtain ⟨out, ps, h1, h2, h3, h4⟩ := long_reads v m hm hl
  refine ⟨out, ps, h1, h2, ?_, h4⟩
  rw [h3, Nat.div_mul_cancel hd, List.take_length]

/-- C35 fails for every other length: the value written stands for a text that is shorter by the remainder; the end is cut off. -/
theorem C35_truncates (v : Value) (m : Nat) (hm : 0 < m) (hl : m < v.text.length) (hd : ¬ m ∣ (withoutQuotes v.text).length) (out : Str) (ps : List Str)
    (ho : bibFormatter v m = some out) (hr : Reads out ps) :
    ps.flatten ≠ withoutQuotes v.text ∧ ∃ rest, ps.flatten ++ rest = withoutQuotes v.text ∧ rest.length = (withoutQuotes v.text).length % m := by
  obtain ⟨out', ps', h1, h2, h3, h4⟩ := long_reads v m hm hl
  rw [ho] at h1
  cases h1
  rw [C35_reading_unique out ps ps' hr h2, h3]
  have hlt : (withoutQuotes v.text).length / m * m < (withoutQuotes v.text).length := by
    have := Nat.div_add_mod (withoutQuotes v.text).length m
    have h0 : (withoutQuotes v.text).length % m ≠ 0 := fun h => hd (Nat.dvd_of_mod_eq_zero h)
    rw [Nat.mul_comm] at this
    omega
  refine ⟨?_, (withoutQuotes v.text).drop ((withoutQuotes v.text).length / m * m), List.take_append_drop _ _, ?_⟩
  · intro h
    have := congrArg List.length h
    rw [List.length_take] at this
    omega
  · rw [List.length_drop]
    have := Nat.div_add_mod (withoutQuotes v.text).length m
    rw [Nat.mul_comm] at this
    omega

/-! ## Non-vacuity -/

example : bibFormatter (.list ["A".toList, "B".toList]) 7 = some "\"A and B\"".toList := by decide +kernel
example : bibFormatter (.str "a \"{b}\"".toList) 9 = some "{a \"\\{b\\}\"}".toList := by decide +kernel
example : bibFormatter (.str "abcdef".toList) 3 = some "\"abc\" # \"def\"".toList := by decide +kernel
/-- The last character is lost. -/
theorem C35_witness : bibFormatter (.str "abcdefg".toList) 3 = some "\"abc\" # \"def\"".toList := by decide +kernel
/-- Nothing is left. -/
theorem C35_witness_empty : bibFormatter (.str "\"ab\"".toList) 3 = some "\"\"".toList := by decide +kernel

end Verif.Props.Bib
