import Verif.Py.Decimal

/-!
# JSON

Values, their tokens, and how the tokens stand in a text (RFC 8259). Left out: numbers other than natural ones, and `\u` escapes in strings.
-/
set_option autoImplicit false
namespace Verif.Spec.Json
open Verif.Py

inductive Value where
  | null
  | bool (b : Bool)
  | num (n : Nat)
  | str (s : Str)
  | arr (l : List Value)
  | obj (l : List (Str × Value))

inductive Tok where
  | punct (c : Char)
  | str (s : Str)
  | word (w : Str)
deriving DecidableEq, Repr

mutual
/-- The tokens of a value. -/
def toks : Value → List Tok
  | .null => [.word "null".toList]
  | .bool b => [.word (if b then "true".toList else "false".toList)]
  | .num n => [.word (showNat n)]
  | .str s => [.str s]
  | .arr l => .punct '[' :: items l ++ [.punct ']']
  | .obj l => .punct '{' :: members l ++ [.punct '}']
/-- The values of an array, with commas between them. -/
def items : List Value → List Tok
  | [] => []
  | [v] => toks v
  | v :: w :: l => toks v ++ .punct ',' :: items (w :: l)
/-- The members of an object. -/
def members : List (Str × Value) → List Tok
  | [] => []
  | [m] => .str m.1 :: .punct ':' :: toks m.2
  | m :: w :: l => .str m.1 :: .punct ':' :: toks m.2 ++ .punct ',' :: members (w :: l)
end

/-- Where in a text one is: between the tokens, in a word, in a string, behind a backslash in a string. -/
inductive At where
  | out
  | word (w : Str)
  | str (s : Str)
  | esc (s : Str)
deriving DecidableEq, Repr

def isWs (c : Char) : Bool := c = ' ' || c = '\n' || c = '\t' || c = '\r'
def isPunct (c : Char) : Bool := c ∈ ['{', '}', '[', ']', ':', ',']
def isWord (c : Char) : Bool := c.isAlphanum

/-- What an escaped character stands for. -/
def unescape (c : Char) : Option Char :=
  if c = '"' ∨ c = '\\' ∨ c = '/' then some c
  else if c = 'n' then some '\n'
  else if c = 't' then some '\t'
  else if c = 'r' then some '\r'
  else if c = 'b' then some '\x08'
  else if c = 'f' then some '\x0c'
  else none

/-- One character: where one is then, and the tokens that end there. -/
def next (a : At) (c : Char) : Option (At × List Tok) :=
  match a with
  | .out =>
    if isWs c then some (.out, []) else if isPunct c then some (.out, [.punct c]) else if c = '"' then some (.str [], [])
    else if isWord c then some (.word [c], []) else none
  | .word w =>
    if isWs c then some (.out, [.word w]) else if isPunct c then some (.out, [.word w, .punct c])
    else if isWord c then some (.word (w ++ [c]), []) else none
  | .str s => if c = '"' then some (.out, [.str s]) else if c = '\\' then some (.esc s, []) else if c.toNat < 32 then none else some (.str (s ++ [c]), [])
  | .esc s => (unescape c).map (fun d => (.str (s ++ [d]), []))

/-- Several characters. -/
def scan (a : At) : Str → Option (At × List Tok)
  | [] => some (a, [])
  | c :: s =>
    match next a c with
    | none => none
    | some (b, t) => (scan b s).map (fun p => (p.1, t ++ p.2))

/-- The tokens of a text. -/
def lex (text : Str) : Option (List Tok) :=
  match scan .out text with
  | some (.out, t) => some t
  | some (.word w, t) => some (t ++ [.word w])
  | _ => none

/-- The text is JSON for the value. -/
def IsJson (text : Str) (v : Value) : Prop := lex text = some (toks v)

end Verif.Spec.Json
