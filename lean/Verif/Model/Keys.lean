import Verif.Model.Crypto
/-!
# TFChainWallet.py: the keys of a wallet

`derive` is ed25519: the public key bytes of the private key with the given 32-byte seed. `active` is the answer of the explorer for an
address: `true` when it has a history, `false` for `ExplorerNoContent`, an error for any other exception.
-/
namespace TF

/-- TFChainWallet.py:32-90: the part of a wallet that concerns keys. `pairs` is the dict `_key_pairs` in insertion order (the private keys
are not modelled), `unused` is `_unused_key_pairs`. -/
structure Keys where
  seed : Bytes
  pairs : List (Str × PublicKey) := []
  primary : Str := []
  count : Nat := 0
  unused : List PublicKey := []
  scanCount : Nat := 3
  deriving DecidableEq, Repr

/-- TFChainWallet.py:569-571: the bytes hashed into the private key seed of the key with the given index. -/
def keyInput (seed : Bytes) (index : Nat) : Res Bytes := ((Out.ok seed).andThen (siaInt index)).toRes

/-- TFChainWallet.py:568-578: the key with the given index. -/
def keyAt (H derive : Bytes → Bytes) (seed : Bytes) (index : Nat) : Res PublicKey := do
  let b ← keyInput seed index
  let h ← Hash.new (.bytes (derive (H b)))
  return ⟨.ed25519, h⟩

/-- `str(key_pair.unlockhash)`. -/
def addressOf (H : Bytes → Bytes) (k : PublicKey) : Res Str := do return (← k.unlockhash H).str H

/-- `self._key_pairs.get(address)`. -/
def Keys.lookup (s : Keys) (a : Str) : Option PublicKey := (s.pairs.find? fun p => p.1 = a).map (·.2)

/-- TFChainWallet.py:534-549 `key_pair_get` with the text of an address; `none` is the `KeyError`. -/
def Keys.get? (s : Keys) (a : Str) : Option PublicKey :=
  if a.take 2 = "00".toList then s.lookup s.primary else s.lookup a

/-- TFChainWallet.py:588-605 `_key_pair_add` without counting. -/
def Keys.addPair (H : Bytes → Bytes) (s : Keys) (k : PublicKey) : Res Keys := do
  let a ← addressOf H k
  if s.pairs.any fun p => p.1 = a then throw .keyError
  return { s with pairs := s.pairs ++ [(a, k)] }

/-- TFChainWallet.py:557-586 `_key_pair_new()`: an unused key from the pool first, else the next one. -/
def Keys.new1 (H derive : Bytes → Bytes) (s : Keys) : Res (Keys × PublicKey) :=
  match s.unused with
  | k :: rest => do
    let s' ← ({ s with unused := rest } : Keys).addPair H k
    return (s', k)
  | [] => do
    let k ← keyAt H derive s.seed s.count
    let s' ← s.addPair H k
    return ({ s' with count := s'.count + 1 }, k)

/-- TFChainWallet.py:79-80: `n` more keys. -/
def Keys.newMany (H derive : Bytes → Bytes) : Nat → Keys → Res Keys
  | 0, s => .ok s
  | n + 1, s => do
    let (s, _) ← s.new1 H derive
    newMany H derive n s

/-- TFChainWallet.py:266-267: the candidates of a round of scanning. -/
def Keys.candidates (H derive : Bytes → Bytes) (s : Keys) : Res (List PublicKey) :=
  (List.range s.scanCount).mapM fun off => keyAt H derive s.seed (s.count + off)

/-- TFChainWallet.py:268-278: which of them have a history. -/
def probe (H : Bytes → Bytes) (active : Str → Res Bool) (l : List PublicKey) : Res (List Bool) :=
  l.mapM fun k => do active (← addressOf H k)

/-- `l[:-n]` for `n ≥ 1`. -/
def dropEnd {α : Type} (l : List α) (n : Nat) : List α := l.take (l.length - n)

/-- TFChainWallet.py:283-289: integrate the used keys, pool the others; `last` is the index of the last used key. The state is the one in which
the loop ends or is left with an exception. -/
def Keys.integrate (H : Bytes → Bytes) : Nat → Nat → List (PublicKey × Bool) → Keys → Keys × Res Nat
  | _, last, [], s => (s, .ok last)
  | i, _, (k, true) :: rest, s => match s.addPair H k with
    | .error e => (s, .error e)
    | .ok s => integrate H (i + 1) i rest s
  | i, last, (k, false) :: rest, s => integrate H (i + 1) last rest { s with unused := s.unused ++ [k] }

/-- TFChainWallet.py:262-299: the rounds of scanning; the loop goes on as long as the last candidate of a round is used (`fuel` bounds the
number of rounds, `none` is returned when it is not enough). The state is the one in which the loop ends or is left with an exception. -/
def Keys.scanLoop (H derive : Bytes → Bytes) (active : Str → Res Bool) : Nat → Keys → Option (Keys × Res Unit)
  | 0, _ => none
  | fuel + 1, s =>
    match s.candidates H derive with
    | .error e => some (s, .error e)
    | .ok ks => match probe H active ks with
      | .error e => some (s, .error e)
      | .ok used =>
        if !used.any id then some (s, .ok ()) else
        match s.integrate H 0 0 (ks.zip used) with
        | (s1, .error e) => some (s1, .error e)
        | (s1, .ok last) =>
          let s2 : Keys := { s1 with unused := dropEnd s1.unused (s1.scanCount - last), count := s1.count + (last + 1) }
          if used.getLast? = some true then scanLoop H derive active fuel s2 else some (s2, .ok ())

/-- TFChainWallet.py:251-302 `_key_scan` (without the returned bool). -/
def Keys.scan (H derive : Bytes → Bytes) (active : Str → Res Bool) (fuel : Nat) (s : Keys) : Option (Keys × Res Unit) :=
  if s.unused.length ≠ 0 ∨ s.scanCount = 0 then some (s, .ok ()) else s.scanLoop H derive active fuel

/-- TFChainWallet.py:63-80: a wallet with the given seed and number of keys, before the first scan. (`key_start_index` is stored and never
used. 23, 69-71: three keys are scanned by default.) -/
def Keys.init (H derive : Bytes → Bytes) (seed : Bytes) (keyCount scanCount : Int) : Res Keys := do
  let n := (max 1 keyCount).toNat
  let sc := max (-1) scanCount
  let s : Keys := { seed := seed, scanCount := if sc = -1 then 3 else sc.toNat }
  let (s, k) ← s.new1 H derive
  let a ← addressOf H k
  ({ s with primary := a } : Keys).newMany H derive (n - 1)

end TF
