import Verif.Model.Keys
/-! # Seeds as words (BIP39)

A seed of 16, 20, 24, 28 or 32 bytes followed by one bit of its SHA-256 digest for every 4 bytes is a number; its digits to the base 2048 are the positions of
the words in the list of 2048 words. -/
namespace TF.Spec

/-- The number with these digits, the most significant first. -/
def ofDigits (base : Nat) (l : List Nat) : Nat := l.foldl (fun v d => base * v + d) 0

/-- Bytes as a number, the most significant first. -/
def beNumber (b : Bytes) : Nat := ofDigits 256 (b.map UInt8.toNat)

/-- A word list: 2048 different words without spaces. -/
structure WordList (words : List Str) : Prop where
  size : words.length = 2048
  distinct : words.Nodup
  spaceless : ∀ w ∈ words, ' ' ∉ w

/-- The text consists of the words for the seed. -/
def WordsFor (sha : Bytes → Bytes) (words : List Str) (seed : Bytes) (text : Str) : Prop :=
  seed.length ∈ [16, 20, 24, 28, 32] ∧
  ∃ (positions : List Nat) (ws : List Str),
    4 * positions.length = 3 * seed.length ∧
    ofDigits 2048 positions = beNumber seed * 2 ^ (seed.length / 4) + beNumber (sha seed) / 2 ^ (256 - seed.length / 4) ∧
    ws.map some = positions.map (words[·]?) ∧
    text = List.intercalate [' '] ws

end TF.Spec
