import Verif.Py.StrOps

/-!
# What counts as the start of a copyright statement

The fixed phrases, and two dated forms: `. (c) 2010 ` with optional brackets and either case of the letter, and `. 2010 Elsevier`.
-/
set_option autoImplicit false
namespace Verif.Spec.Copyright
open Verif.Py

/-- The fixed phrases, in order of preference. -/
def phrases : List String :=
  [". &COPY; ", ". Crown Copyright", " Elsevier Ltd. ", ". Copyright", ". Published by Els", ". (c) ", ". (C) "]

/-- A dated notice. -/
inductive Dated (digit : Char → Bool) : Str → Prop where
  | c (op cl : Bool) (l a b c d : Char) (hl : l = 'c' ∨ l = 'C') (ha : digit a) (hb : digit b) (hc : digit c) (hd : digit d) :
      Dated digit (". ".toList ++ (if op then ['('] else []) ++ [l] ++ (if cl then [')'] else []) ++ [' ', a, b, c, d, ' '])
  | elsevier (a b c d : Char) (ha : digit a) (hb : digit b) (hc : digit c) (hd : digit d) :
      Dated digit (". ".toList ++ [a, b, c, d] ++ " Elsevier".toList)

/-- The text at which an abstract is cut: the first of the phrases, in their order, that the abstract has; if it has none of them, the text of
its leftmost dated notice. -/
inductive Marker (digit : Char → Bool) (s : Str) : Str → Prop where
  | phrase (before : List String) (p : String) (after : List String) (hp : phrases = before ++ p :: after) (hin : p.toList <:+: s)
      (hfirst : ∀ q ∈ before, ¬ q.toList <:+: s) : Marker digit s p.toList
  | dated (a m b : Str) (hno : ∀ q ∈ phrases, ¬ q.toList <:+: s) (hs : s = a ++ m ++ b) (hm : Dated digit m)
      (hleft : ∀ a' m' b', s = a' ++ m' ++ b' → Dated digit m' → a.length ≤ a'.length) : Marker digit s m

/-- The copyright statement of an abstract: its marker, without the period before it, and what follows when the abstract is split at the marker, without
white space at the end. -/
def Statement (ws digit : Char → Bool) (s c : Str) : Prop :=
  ∃ m rest, Marker digit s m ∧ (Str.split m s).getLast? = some rest ∧ c = (if m.head? = some '.' then m.tail else m) ++ Str.rstrip ws rest

end Verif.Spec.Copyright
