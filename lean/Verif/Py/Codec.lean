import Verif.Py.Str

/-!
# The codecs `utf-8` and `latin-1`

Simplified: Lean's characters have no surrogates, so every string can be encoded in UTF-8.
-/
set_option autoImplicit false
namespace Verif.Py

inductive Codec where
  | utf8
  | latin1
deriving DecidableEq, Repr

namespace Codec

/-- Whether a string can be encoded; otherwise there is a `UnicodeEncodeError`. -/
def fits : Codec → Str → Bool
  | .utf8, _ => true
  | .latin1, s => s.all (fun c => c.toNat < 256)

/-- The bytes of a string in the codec. -/
def bytes : Codec → Str → List UInt8
  | .utf8, s => s.flatMap String.utf8EncodeChar
  | .latin1, s => s.map (fun c => UInt8.ofNat c.toNat)

/-- The text of bytes under `latin-1`, which decodes everything. -/
def latin1Text (b : List UInt8) : Str := b.map (fun x => Char.ofNat x.toNat)

/-- The text of bytes under `utf-8`; `none` is a `UnicodeDecodeError`. -/
def utf8Text (b : List UInt8) : Option Str := (ByteArray.utf8Decode? b.toByteArray).map Array.toList

end Codec
end Verif.Py
