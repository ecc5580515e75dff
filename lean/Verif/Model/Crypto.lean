import Verif.Model.Conditions
/-!
# types/CryptoTypes.py
-/

namespace TF

/-- types/CryptoTypes.py:11-48 `PublicKeySpecifier` (the two values it defines). -/
inductive KeySpec | nil | ed25519
  deriving DecidableEq, Repr

/-- types/CryptoTypes.py:35-36, 47-48 `int(specifier)`. -/
def KeySpec.toNat : KeySpec → Nat
  | .nil => 0
  | .ed25519 => 1

/-- types/CryptoTypes.py:38-41 `__str__`. -/
def KeySpec.str : KeySpec → Str
  | .nil => []
  | .ed25519 => "ed25519".toList

/-- types/CryptoTypes.py:21-28 `from_json` on a str. -/
def KeySpec.fromStr (s : Str) : Res KeySpec :=
  if s = [] then .ok .nil
  else if s = "ed25519".toList then .ok .ed25519
  else .error .invalidPublicKeySpecifier

/-- types/CryptoTypes.py:57-62 `PublicKey`; a `None` hash and `Hash()` are indistinguishable (92-96). -/
structure PublicKey where
  spec : KeySpec
  hash : Hash
  deriving DecidableEq, Repr

/-- types/CryptoTypes.py:107-108 `__str__`, also `json`. -/
def PublicKey.str (k : PublicKey) : Str := k.spec.str ++ ':' :: k.hash.str

/-- types/CryptoTypes.py:64-77 `from_json` on a str. `split(':', maxsplit=2)` has exactly two parts iff there is exactly one
colon. -/
def PublicKey.fromStr (s : Str) : Res PublicKey :=
  if s = [] then .ok ⟨.nil, ⟨[]⟩⟩
  else if s.count ':' ≠ 1 then .error .valueError
  else do
    let sp ← KeySpec.fromStr (s.takeWhile (· ≠ ':'))
    let h ← Hash.fromJson ((s.dropWhile (· ≠ ':')).drop 1)
    return ⟨sp, h⟩

/-- types/CryptoTypes.py:64-77 on any JSON value: falsy values give the default key. -/
def PublicKey.fromJson (j : Json) : Res PublicKey :=
  if !j.truthy then .ok ⟨.nil, ⟨[]⟩⟩
  else match j with
  | .str s => PublicKey.fromStr s
  | _ => .error .typeError

/-- types/CryptoTypes.py:128-132 `_pad_specifier`. -/
def padSpecifier (s : Str) : Bytes := utf8 s ++ List.replicate (16 - (utf8 s).length) 0

/-- types/CryptoTypes.py:134-139 `sia_binary_encode`. -/
def PublicKey.sia (k : PublicKey) : Out := Out.andThen (.ok (padSpecifier k.spec.str)) (siaSliceBytes k.hash.value)

/-- types/CryptoTypes.py:141-146 `rivine_binary_encode`. -/
def PublicKey.riv (k : PublicKey) : Out := (rivInt8 k.spec.toNat).andThen (.ok k.hash.enc)

/-- types/CryptoTypes.py:114-126 `unlockhash`. -/
def PublicKey.unlockhash (H : Bytes → Bytes) (k : PublicKey) : Res UnlockHash := do
  let data ← k.sia.toRes
  let e ← (siaSliceBytes data).toRes
  return ⟨1, ⟨H e⟩⟩

/-- A public key as a value given to an encoder. -/
def PublicKey.val (k : PublicKey) : Val := .obj k.sia k.riv

end TF
