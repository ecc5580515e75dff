import Verif.Model.Keys
import Verif.Model.Duration
/-!
# TFChainWallet.py:55-64, 87-97: the seed of a wallet and its words

The words are made and read by the package `mnemonic` (version 0.18, requirements.txt), which is the standard BIP39. Its two functions are modelled here;
`sha` is SHA-256 and `words` the English word list, in order. `none` is an exception (`ValueError`, `LookupError`, or `ConfigurationError`).
-/
namespace TF

/-- `k` in `n` binary digits, the most significant first. -/
def toBits (n k : Nat) : List Bool := (List.range n).map fun i => k.testBit (n - 1 - i)

/-- The number with these binary digits. -/
def bitsVal (l : List Bool) : Nat := l.foldl (fun v b => 2 * v + b.toNat) 0

/-- The first `k` pieces of `n` digits. -/
def bitGroups (n : Nat) : Nat → List Bool → List (List Bool)
  | 0, _ => []
  | k + 1, l => l.take n :: bitGroups n k (l.drop n)

/-- The binary digits of bytes. -/
def byteBits (b : Bytes) : List Bool := b.flatMap fun x => toBits 8 x.toNat

/-- `mnemonic.Mnemonic.to_mnemonic(data)`. -/
def toMnemonic (sha : Bytes → Bytes) (words : List Str) (data : Bytes) : Option Str :=
  if [16, 20, 24, 28, 32].contains data.length then do
    let b := byteBits data ++ (byteBits (sha data)).take (data.length * 8 / 32)
    let ws ← (bitGroups 11 (b.length / 11) b).mapM fun g => words[bitsVal g]?
    return List.intercalate [' '] ws
  else none

/-- `self.wordlist.index(word)`. -/
def wordIndex (words : List Str) (w : Str) : Option Nat := words.findIdx? (· == w)

/-- `mnemonic.Mnemonic.to_entropy(words)` of a str. -/
def toEntropy (sha : Bytes → Bytes) (words : List Str) (text : Str) : Option Bytes :=
  let ws := splitAll ' ' text
  if [12, 15, 18, 21, 24].contains ws.length then do
    let ixs ← ws.mapM (wordIndex words)
    let bits := ixs.flatMap (toBits 11)
    let c := bits.length / 33
    let e := bits.length - c
    let entropy := (bitGroups 8 (e / 8) bits).map fun g => UInt8.ofNat (bitsVal g)
    if bits.drop e = (byteBits (sha entropy)).take c then return entropy else none
  else none

/-- What a wallet may be given as seed. -/
inductive SeedArg
  | none
  | words (text : Str)
  | raw (b : Bytes)
  | other

/-- TFChainWallet.py:56-62: the seed of a new wallet; `random` are the 32 random bytes behind `generate(strength=256)`. The error stands for any exception. -/
def walletSeed (sha : Bytes → Bytes) (words : List Str) (random : Bytes) : SeedArg → Option Bytes
  | .none => do toEntropy sha words (← toMnemonic sha words random)
  | .words text => toEntropy sha words text
  | .raw b => some b
  | .other => Option.none

/-- TFChainWallet.py:96-97 `mnemonic`. -/
def Keys.mnemonic (sha : Bytes → Bytes) (words : List Str) (s : Keys) : Option Str := toMnemonic sha words s.seed

end TF
