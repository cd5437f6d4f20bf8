import Verif.Model.ZipCache
import Verif.Spec.Advisory
import Verif.Spec.JsonText
/-! # The file of a cached archive, and base64 (RFC 4648) -/
namespace Osv.Spec
open Osv

/-- The lowest `k` bits of a number, the highest first. -/
def bits (k n : Nat) : List Bool := (List.range k).reverse.map n.testBit

/-- The bits of a sequence of bytes. -/
def byteBits (b : Bytes) : List Bool := b.flatMap fun x => bits 8 x.toNat

/-- The 64 characters that stand for the numbers 0 to 63. -/
def base64Alphabet : Str := g!"ABCDEFGHIJKLMNOPQRSTUVWXYZabcdefghijklmnopqrstuvwxyz0123456789+/"

/-- A text with one character for every six bits, filled up with at most two `=` to a multiple of four characters; what remains of the
bits after the bytes is `rest`. -/
def Spells (s : Str) (b : Bytes) (rest : List Bool) : Prop :=
  ∃ (six : List Nat) (k : Nat) (chars : Str), Each (fun n c => base64Alphabet[n]? = some c) six chars ∧ s = chars ++ List.replicate k '=' ∧
    k ≤ 2 ∧ 4 ∣ s.length ∧ six.flatMap (bits 6) = byteBits b ++ rest ∧ rest.length = 2 * k

/-- A text that base64 reads as the bytes: line breaks do not count, nor do the bits that remain. -/
def Base64Text (s : Str) (b : Bytes) : Prop := ∃ rest, Spells (s.filter fun c => c != '\n' && c != '\r') b rest

/-- A natural number in decimal. -/
def decimal (n : Nat) : Str := Nat.toDigits 10 n

/-- The value as a byte; zero if it is none. -/
def ByteIs (b : UInt8) (v : JVal) : Prop :=
  v = .num (decimal b.toNat) ∨ (b = 0 ∧ ∀ x : UInt8, v ≠ .num (decimal x.toNat))

/-- The text of a member; empty if there is none. -/
def LooseText (m : JMembers) (f s : Str) : Prop := Member m f (.str s) ∨ (s = [] ∧ ∀ t, ¬ Member m f (.str t))

/-- What an object says as a cached archive. -/
structure CacheSays (m : JMembers) (c : Cache) : Prop where
  url : LooseText m g!"url" c.url
  etag : LooseText m g!"etag" c.etag
  date : LooseText m g!"date" c.date
  body : (∃ s, Member m g!"body" (.str s) ∧ Base64Text s c.body) ∨
    (∃ l, Member m g!"body" (.arr l) ∧ Each ByteIs c.body l.toList) ∨
    (c.body = [] ∧ (∀ s b, Member m g!"body" (.str s) → ¬ Base64Text s b) ∧ ∀ l, ¬ Member m g!"body" (.arr l))

/-- All values in the object have the right type. -/
def CacheShape (m : JMembers) : Prop :=
  (∀ f ∈ [g!"url", g!"etag", g!"date"], ∀ v, Member m f v → IsText v) ∧
  ∀ v, Member m g!"body" v → v = .null ∨ (∃ s b, v = .str s ∧ Base64Text s b) ∨
    ∃ l, v = .arr l ∧ ∀ x ∈ l.toList, x = .null ∨ ∃ b : UInt8, x = .num (decimal b.toNat)

end Osv.Spec
