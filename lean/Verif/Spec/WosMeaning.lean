import Verif.Model.WosFields
import Verif.Spec.TagTable
import Verif.Py.Decimal

/-! # What the lines of a field of a Web of Science file mean -/
set_option autoImplicit false
namespace Verif.Spec.WosMeaning
open Verif.Py Verif.Model.WosFields

/-- Months and seasons and their numbers. -/
def months : List (Str × Nat) :=
  [("JAN", 1), ("FEB", 2), ("MAR", 3), ("APR", 4), ("MAY", 5), ("JUN", 6), ("JUL", 7), ("AUG", 8), ("SEP", 9), ("OCT", 10), ("NOV", 11), ("DEC", 12),
    ("SPR", 3), ("SUM", 6), ("FAL", 9), ("WIN", 12)].map (fun p => (p.1.toList, p.2))

/-- What the lines of a field mean, for every tag of Web of Science, and for tags that are not known. -/
inductive Means (P : Prims) : Str → List Str → FVal → Prop
  | text (tag : Str) (lines : List Str) : tag ∈ ["TI", "SE", "BS", "CT", "HO", "CL", "FX", "PA", "SU"].map String.toList → Means P tag lines (.text ([' '].intercalate lines))
  | upper (tag : Str) (lines : List Str) : tag ∈ ["SO", "PU", "PI", "JI"].map String.toList → Means P tag lines (.text (P.upper ([' '].intercalate lines)))
  | abstract (lines : List Str) : Means P "AB".toList lines (.text (['\n'].intercalate lines))
  | languages (lines : List Str) : Means P "LA".toList lines (.text ([',', ' '].intercalate lines))
  | names (tag : Str) (lines : List Str) : tag ∈ ["AF", "BE", "AU", "BA", "BF", "ED"].map String.toList → Means P tag lines (.texts lines)
  | references (lines : List Str) : Means P "CR".toList lines (.cites lines)
  | items (tag : Str) (lines items : List Str) : tag ∈ ["EM", "RI", "OI", "FU", "SC", "BN", "WC"].map String.toList → items ≠ [] → (∀ i ∈ items, ¬ "; ".toList <:+: i) →
      [' '].intercalate lines = "; ".toList.intercalate items → Means P tag lines (.texts items)
  | ownKeywords (lines items : List Str) : items ≠ [] → (∀ i ∈ items, ¬ "; ".toList <:+: i) → P.lower ([' '].intercalate lines) = "; ".toList.intercalate items →
      Means P "DE".toList lines (.texts items)
  | indexKeywords (lines items : List Str) : items ≠ [] → (∀ i ∈ items, ¬ "; ".toList <:+: i) → P.upper ([' '].intercalate lines) = "; ".toList.intercalate items →
      Means P "ID".toList lines (.texts items)
  | sponsors (groups : List (List Str)) : groups ≠ [] → (∀ g ∈ groups, g ≠ []) → (∀ g ∈ groups, ∀ i ∈ g, ¬ ", ".toList <:+: i) →
      Means P "SP".toList (groups.map (", ".toList.intercalate ·)) (.texts groups.flatten)
  | first (tag v : Str) (rest : List Str) : tag ∈ ["PT", "GP", "CA", "DT", "CY", "RP", "SN", "EI", "J9", "IS", "PN", "SI", "MA", "AR", "DI", "D2", "GA", "UT", "PM"].map String.toList →
      Means P tag (v :: rest) (.text v)
  | volume (tag v : Str) (rest : List Str) : tag ∈ ["VL", "BP", "EP"].map String.toList → Means P tag (v :: rest) (.text (Str.strip P.ws v))
  | count (tag : Str) (n : Nat) (rest : List Str) : tag ∈ ["NR", "TC", "Z9", "PG"].map String.toList → Means P tag (showNat n :: rest) (.num n)
  | year (y : Nat) (rest : List Str) : 1000 ≤ y → y < 10000 → Means P "PY".toList (showNat y :: rest) (.num y)
  | month (m tail : Str) (rest : List Str) (n : Nat) : (P.upper m, n) ∈ months → ' ' ∉ m → '-' ∉ m → (tail = [] ∨ (∃ t, tail = ' ' :: t) ∨ ∃ t, tail = '-' :: t) →
      Means P "PD".toList ((m ++ tail) :: rest) (.num n)
  | addresses (lines : List (Option Str × Str)) : (∀ p ∈ lines, ∀ names, p.1 = some names → ¬ "] ".toList <:+: names) →
      (∀ p ∈ lines, p.1 = none → ∃ c cs, p.2 = c :: cs ∧ c ≠ '[') →
      Means P "C1".toList (lines.map fun p => match p.1 with | some names => '[' :: names ++ "] ".toList ++ p.2 | none => p.2) (.texts (lines.map Prod.snd))
  | unknown (tag : Str) (lines : List Str) : (∀ name, ¬ TagTable.Wos tag name) → Means P tag lines (.texts lines)

/-- A value as text, lists with a separator. -/
def shown (sep : Str) : FVal → Str
  | .text s => s
  | .texts l => sep.intercalate l
  | .cites l => sep.intercalate l
  | .num n => showInt n

end Verif.Spec.WosMeaning
