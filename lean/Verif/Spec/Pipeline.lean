import Verif.Spec.Wos
import Mathlib.Data.List.Infix

/-!
# A Web of Science file as a list of papers (C104)
-/
set_option autoImplicit false
namespace Verif.Spec.Pipeline
open Verif.Py Verif.Spec.Wos

/-- A paper is its fields: tags with their lines. -/
abbrev Paper := List (Str × List Str)

/-- The lines of a paper under a tag. -/
def linesOf (p : Paper) (tag : String) : List Str := (p.find? (fun f => decide (f.1 = tag.toList))).elim [] Prod.snd

/-- The lines of a paper under a tag as one text. -/
def textOf (p : Paper) (tag : String) : Str := " ".toList.intercalate (linesOf p tag)

/-- The text of a file: a line about its origin, which can start with a byte order mark, the version, the papers with `ER` and an empty line behind each, and `EF`. -/
def fileText (origin : Str) (papers : List Paper) : Str :=
  origin ++ "\nVR 1.0\n".toList ++ papers.flatMap (fun p => (recordLines p).flatten ++ "ER\n\n".toList) ++ "EF".toList

/-- A paper as files hold it: its fields can be written, there is an accession number, the tag `j9`, which no file has, is not used, and it does not start with `EF` or blanks. -/
structure PaperOk (ws : Char → Bool) (p : Paper) : Prop where
  fields : FieldsOk p
  noCR : ∀ f ∈ p, '\r' ∉ f.1 ∧ ∀ v ∈ f.2, '\r' ∉ v
  ut : linesOf p "UT" ≠ []
  noJ9 : ∀ f ∈ p, f.1 ≠ "j9".toList
  first : ∀ f, p.head? = some f → f.1 ≠ "EF".toList ∧ ∃ c ∈ f.1, ws c = false

/-- A file of different papers. -/
structure FileOk (ws : Char → Bool) (origin : Str) (papers : List Paper) : Prop where
  each : ∀ p ∈ papers, PaperOk ws p
  different : (papers.map (fun p => (linesOf p "UT").head?)).Nodup
  origin : '\n' ∉ origin ∧ '\r' ∉ origin ∧ ¬ "VR 1.0".toList <:+: origin ++ "\n".toList

/-- Orders in which collections are gone through: each is an order of what there is. -/
def Orders {ρ : Type} (orders : List (List ρ → List ρ)) : Prop := ∀ o ∈ orders, ∀ rs, (o rs).Perm rs

/-- The first line of the files the package writes. -/
def banner : Str := '﻿' :: "FN Thomson Reuters Web of Science™".toList

end Verif.Spec.Pipeline
