import Verif.Model.CacheRace

/-!
# What loading a directory at the same time should give (C103)
-/
set_option autoImplicit false
namespace Verif.Spec.CacheRace
open Verif.Model.CacheRace

variable {R β : Type}

/-- What is pickled unpickles to the collection, when it is complete and not before. -/
def Pickles (W : World R β) : Prop :=
  ∀ i, W.judge (W.dump i) = some (.accept W.value) ∧ ∀ p, p <+: W.dump i → p ≠ W.dump i → W.judge p = none

/-- The cache file is there and holds all that one program pickled. -/
def Intact (W : World R β) (d : Disk β) : Prop := ∃ k j, d.entry = some k ∧ d.data k = W.dump j

/-- Each byte is that of the old cache at this place, one that some program writes there, or zero. -/
def Mixture (W : World R β) (old bs : List β) : Prop :=
  ∀ (o : Nat) (b : β), bs[o]? = some b → b = W.zero ∨ old[o]? = some b ∨ ∃ j, (W.dump j)[o]? = some b

/-- Unpickling the bytes ends with an exception that `_loadFromCache` catches. -/
def Rejected (W : World R β) (bs : List β) : Prop :=
  ∃ p, p <+: bs ∧ (∀ q, q <+: p → q ≠ p → W.judge q = none) ∧ (W.judge p = some .caught ∨ (p = bs ∧ W.judge p = none ∧ W.atEnd p = true))

/-- The bytes are cut short: unpickling wants more and raises an exception that is not caught. -/
def CutShort (W : World R β) (bs : List β) : Prop := (∀ q, q <+: bs → W.judge q = none) ∧ W.atEnd bs = false

/-- A step in which no other program than `i` takes part, and in which it is not killed. -/
def Alone (W : World R β) (i : Nat) (s s' : State R β) : Prop := Step W s s' ∧ (∀ j, j ≠ i → s'.pc j = s.pc j) ∧ (s'.pc i ≠ .killed ∨ s.pc i = .killed)

end Verif.Spec.CacheRace
