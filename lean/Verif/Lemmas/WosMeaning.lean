import Verif.Spec.WosMeaning
import Verif.Props.WosFields

/-! # What the lines of a field mean is what the field is read as -/
set_option autoImplicit false
namespace Verif.Lemmas.WosMeaning
open Verif.Py Verif.Model.WosFields Verif.Spec.WosMeaning Verif.Props

theorem means_value {P : Prims} (hint : ∀ n : Nat, P.int (showNat n) = some (n : Int)) {tag : Str} {lines : List Str} {v : FVal} (h : Means P tag lines v) :
    wosValue P tag lines = .ok v := by
  cases h with
  | text _ _ m => exact WosFields.C69_text P _ m _
  | upper _ _ m => exact WosFields.C69_text_upper P _ m _
  | abstract => exact (WosFields.C69_abstract P _).1
  | languages => exact (WosFields.C69_abstract P _).2
  | names _ _ m => exact (WosFields.C69_lines P _ m _).1
  | references => exact (WosFields.C69_lines P "AF".toList (by decide) _).2
  | items _ _ _ m h1 h2 h3 => exact WosFields.C69_lists P _ m _ _ h1 h2 h3
  | ownKeywords _ _ h1 h2 h3 => exact (WosFields.C69_keywords P _ _ h1 h2).1 h3
  | indexKeywords _ _ h1 h2 h3 => exact (WosFields.C69_keywords P _ _ h1 h2).2 h3
  | sponsors _ h1 h2 h3 => exact WosFields.C69_sponsors P _ h1 h2 h3
  | first _ _ _ m => exact (WosFields.C69_first P _ _).1 _ m
  | volume _ _ _ m => exact (WosFields.C69_first P _ _).2 _ m
  | count _ n _ m => exact (WosFields.C69_counts P _ m _ _).1 n (hint n)
  | year y rest h1 h2 => exact WosFields.C69_year_digits P hint y ⟨h1, h2⟩ rest
  | month m tail rest n h1 h2 h3 h4 =>
    have : WosFields.MonthNumber (P.upper m) n := h1
    exact WosFields.C69_month P m tail rest n this h2 h3 h4
  | addresses _ h1 h2 => exact WosFields.C69_addresses P _ h1 h2
  | unknown _ _ h1 => exact (WosFields.C69_known P _).2 h1 _

end Verif.Lemmas.WosMeaning
