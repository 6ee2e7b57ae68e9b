import Verif.Spec.ScopusPipeline
import Verif.Model.OtherFields

/-! # The values the papers of a Scopus file have in a column -/
set_option autoImplicit false
namespace Verif.Spec.ScopusDict
open Verif.Py Verif.Model.OtherFields Verif.Spec.ScopusPipeline

/-- What stands in a column means a list of texts, a text, a number, a list of references or a list of grants. An empty bare cell means nothing. -/
inductive Column (papers : List Paper) : String → (Paper → Option SVal) → Prop
  | list (c sep : String) (items : Paper → List Str) : (c, sep) ∈ listColumns → (∀ p ∈ papers, Lists sep (p c) (items p)) →
      Column papers c (fun p => if items p = [] then none else some (.texts (items p)))
  | text (c : String) : c ∈ textColumns → Column papers c (fun p => (p c).value.map .text)
  | number (c : String) (n : Paper → Option Nat) : c ∈ ["Year", "Page count", "Cited by", "Conference code"] → (∀ p ∈ papers, (p c).value = (n p).map showNat) →
      Column papers c (fun p => (n p).map (fun n : Nat => .num (n : Int)))
  | references (items : Paper → List Str) : (∀ p ∈ papers, Lists "; " (p "References") (items p)) →
      Column papers "References" (fun p => if items p = [] then none else some (.cites (items p)))
  | grants (items : Paper → List Str) : (∀ p ∈ papers, Lists "; " (p "Funding Details") (items p)) →
      Column papers "Funding Details" (fun p => if items p = [] then none else some (.grants (items p)))

/-- The columns in which some paper has something. -/
def Used (papers : List Paper) (c : String) : Prop := c ∈ Scopus.columns ∧ ∃ p ∈ papers, (p c).value ≠ none

end Verif.Spec.ScopusDict
