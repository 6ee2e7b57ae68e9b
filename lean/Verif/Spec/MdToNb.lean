import Verif.Py.Decimal
import Verif.Py.StrOps

/-!
# What is expected of the notebook converter

A line `[12]text` is a line of code, number `12`; any other line is markdown. JSON strings as in RFC 8259, without `\u` escapes.
-/
set_option autoImplicit false
namespace Verif.Spec.MdToNb
open Verif.Py

/-- What a line (without its end) is: the number of a line of code, or `none`, and the text. -/
def kind (line : Str) : Option Str × Str :=
  match line with
  | '[' :: r =>
    match r.dropWhile isDig with
    | ']' :: text => (some (r.takeWhile isDig), text)
    | _ => (none, line)
  | _ => (none, line)

/-- The lines of a file, and what they are. -/
def kinds (text : Str) : List (Option Str × Str) := (Str.split ['\n'] text).map kind

/-- The lines that are not empty, and whether they are code. -/
def content (text : Str) : List (Bool × Str) := ((kinds text).map (fun p => (p.1.isSome, p.2))).filter (fun p => p.2 ≠ [])

/-- The longest runs of lines of one kind and number. -/
def runs : List (Option Str × Str) → List (Option Str × List Str)
  | [] => []
  | (k, x) :: r =>
    match runs r with
    | [] => [(k, [x])]
    | (k', xs) :: rs => if k = k' then (k, x :: xs) :: rs else (k, [x]) :: (k', xs) :: rs

/-- A JSON string after its opening quotation mark: its value and what follows it. -/
def jstr : Str → Option (Str × Str)
  | [] => none
  | '"' :: r => some ([], r)
  | '\\' :: '"' :: r => (jstr r).map (fun p => ('"' :: p.1, p.2))
  | '\\' :: '\\' :: r => (jstr r).map (fun p => ('\\' :: p.1, p.2))
  | '\\' :: '/' :: r => (jstr r).map (fun p => ('/' :: p.1, p.2))
  | '\\' :: 'n' :: r => (jstr r).map (fun p => ('\n' :: p.1, p.2))
  | '\\' :: 't' :: r => (jstr r).map (fun p => ('\t' :: p.1, p.2))
  | '\\' :: 'r' :: r => (jstr r).map (fun p => ('\r' :: p.1, p.2))
  | '\\' :: 'b' :: r => (jstr r).map (fun p => ('\x08' :: p.1, p.2))
  | '\\' :: 'f' :: r => (jstr r).map (fun p => ('\x0c' :: p.1, p.2))
  | '\\' :: _ => none
  | c :: r => if c.toNat < 32 then none else (jstr r).map (fun p => (c :: p.1, p.2))

/-- White space of JSON. -/
def jws (c : Char) : Bool := c = ' ' || c = '\n' || c = '\t' || c = '\r'

/-- The items of a JSON array of strings, with at most `n` of them. -/
def jlist : Nat → Str → Option (List Str)
  | 0, _ => none
  | n + 1, s =>
    match s.dropWhile jws with
    | '"' :: r =>
      match jstr r with
      | none => none
      | some (v, rest) =>
        match rest.dropWhile jws with
        | [] => some [v]
        | ',' :: rest => (jlist n rest).map (v :: ·)
        | _ => none
    | _ => none

/-- The text of a notebook cell whose `source` is written so: the strings put together. -/
def jtext (s : Str) : Option Str := (jlist (s.length + 1) s).map List.flatten

end Verif.Spec.MdToNb
