import Verif.Spec.Pipeline
import Verif.Spec.WhoCites
import Verif.Spec.TagTable
import Verif.Spec.Derived

/-! # What the papers of a file have under a tag, and how often a year is cited -/
set_option autoImplicit false
namespace Verif.Spec.FileTables
open Verif.Py Verif.Spec.Pipeline Verif.Spec.WhoCites Verif.Spec.Derived

/-- Under the tag, or its long name, the papers have these items: one on each line, or a list with semicolons in lines broken anyhow. -/
structure Items (papers : List Paper) (k : String) (items : Paper → List Str) : Prop where
  have_items : ∃ tag long : String, TagTable.Wos tag.toList long.toList ∧ (k = tag ∨ k = long) ∧
    ((tag ∈ ["AF", "BE", "AU", "BA", "BF", "ED"] ∧ ∀ p ∈ papers, items p = linesOf p tag) ∨
     (tag ∈ ["EM", "RI", "OI", "FU", "SC", "BN", "WC"] ∧ ∀ p ∈ papers, (items p = [] ↔ linesOf p tag = []) ∧
        textOf p tag = "; ".toList.intercalate (items p) ∧ ∀ i ∈ items p, ¬ "; ".toList <:+: i))

open Classical in
/-- How often the papers cite a work of the year, where a paper is only asked when it is two years younger or has no year. -/
noncomputable def citedIn (papers : List Paper) (refs : Paper → List Ref) (y : Int) : Nat :=
  (papers.map (fun p => if ∃ z : Nat, OfYear p z ∧ (z : Int) < y + 2 then 0 else (refs p).countP (fun r => decide ((r.year : Int) = y)))).sum

end Verif.Spec.FileTables
