import Verif.Model.Py
/-!
# The hash functions the code uses: blake2b with 32 bytes of output, and sha-256

The model takes the hash functions as parameters. Here they are given as they are defined in RFC 7693 and FIPS 180-4, on natural numbers, so that the
model can be run on the data in the tests of the repository (`Verif/Props/Vectors.lean`). Everything proved for all hash functions with 32 bytes of
output holds of them.
-/
namespace TF.Hash

/-- Evaluates `n` before going on (the same as `k n`). -/
def force {α : Type} (n : Nat) (k : Nat → α) : α :=
  match n with
  | 0 => k 0
  | m + 1 => k (m + 1)

/-- Evaluates the elements of the list. -/
def forceList {α : Type} : List Nat → (List Nat → α) → α
  | [], k => k []
  | x :: l, k => force x fun x => forceList l fun l => k (x :: l)

/-- The number with the given bytes, the least significant first. -/
def ofLE : Bytes → Nat
  | [] => 0
  | b :: l => b.toNat + 256 * ofLE l
@[inherit_doc ofLE] def ofBE (l : Bytes) : Nat := ofLE l.reverse

/-- The first `n` groups of `k` bytes. -/
def groups (k : Nat) : Nat → Bytes → List Bytes
  | 0, _ => []
  | n + 1, l => l.take k :: groups k n (l.drop k)

/-! ## blake2b (RFC 7693) -/

/-- RFC 7693, 2.1: addition and rotation to the right of 64-bit words. -/
def add64 (a b : Nat) : Nat := (a + b) % 2 ^ 64
@[inherit_doc add64] def rot64 (a n : Nat) : Nat := (a >>> n) ||| ((a <<< (64 - n)) % 2 ^ 64)

/-- RFC 7693, 2.6: the initial values. -/
def iv64 : List Nat := [
  0x6a09e667f3bcc908, 0xbb67ae8584caa73b, 0x3c6ef372fe94f82b, 0xa54ff53a5f1d36f1, 0x510e527fade682d1, 0x9b05688c2b3e6c1f, 0x1f83d9abfb41bd6b, 0x5be0cd19137e2179]

/-- RFC 7693, 2.7: the message schedule. -/
def sigma : List (List Nat) := [
  [0, 1, 2, 3, 4, 5, 6, 7, 8, 9, 10, 11, 12, 13, 14, 15], [14, 10, 4, 8, 9, 15, 13, 6, 1, 12, 0, 2, 11, 7, 5, 3],
  [11, 8, 12, 0, 5, 2, 15, 13, 10, 14, 3, 6, 7, 1, 9, 4], [7, 9, 3, 1, 13, 12, 11, 14, 2, 6, 5, 10, 4, 0, 15, 8],
  [9, 0, 5, 7, 2, 4, 10, 15, 14, 1, 11, 12, 6, 8, 3, 13], [2, 12, 6, 10, 0, 11, 8, 3, 4, 13, 7, 5, 15, 14, 1, 9],
  [12, 5, 1, 15, 14, 13, 4, 10, 0, 7, 6, 3, 9, 2, 8, 11], [13, 11, 7, 14, 12, 1, 3, 9, 5, 0, 15, 4, 8, 6, 2, 10],
  [6, 15, 14, 9, 11, 3, 0, 8, 12, 2, 13, 7, 1, 4, 10, 5], [10, 2, 8, 4, 7, 6, 1, 5, 15, 11, 9, 14, 3, 12, 13, 0],
  [0, 1, 2, 3, 4, 5, 6, 7, 8, 9, 10, 11, 12, 13, 14, 15], [14, 10, 4, 8, 9, 15, 13, 6, 1, 12, 0, 2, 11, 7, 5, 3]]

/-- RFC 7693, 3.1: the mixing function. -/
def mix (a b c d x y : Nat) {α : Type} (k : Nat → Nat → Nat → Nat → α) : α :=
  force (add64 (add64 a b) x) fun a => force (rot64 (d ^^^ a) 32) fun d => force (add64 c d) fun c => force (rot64 (b ^^^ c) 24) fun b =>
  force (add64 (add64 a b) y) fun a => force (rot64 (d ^^^ a) 16) fun d => force (add64 c d) fun c => force (rot64 (b ^^^ c) 63) fun b => k a b c d

/-- RFC 7693, 3.2: the rounds. `m` is the message block. -/
def rounds (m : List Nat) : List (List Nat) → (v0 v1 v2 v3 v4 v5 v6 v7 v8 v9 v10 v11 v12 v13 v14 v15 : Nat) → List Nat
  | [], v0, v1, v2, v3, v4, v5, v6, v7, v8, v9, v10, v11, v12, v13, v14, v15 => [v0, v1, v2, v3, v4, v5, v6, v7, v8, v9, v10, v11, v12, v13, v14, v15]
  | s :: l, v0, v1, v2, v3, v4, v5, v6, v7, v8, v9, v10, v11, v12, v13, v14, v15 =>
    mix v0 v4 v8 v12 (m.getD (s.getD 0 0) 0) (m.getD (s.getD 1 0) 0) fun v0 v4 v8 v12 =>
    mix v1 v5 v9 v13 (m.getD (s.getD 2 0) 0) (m.getD (s.getD 3 0) 0) fun v1 v5 v9 v13 =>
    mix v2 v6 v10 v14 (m.getD (s.getD 4 0) 0) (m.getD (s.getD 5 0) 0) fun v2 v6 v10 v14 =>
    mix v3 v7 v11 v15 (m.getD (s.getD 6 0) 0) (m.getD (s.getD 7 0) 0) fun v3 v7 v11 v15 =>
    mix v0 v5 v10 v15 (m.getD (s.getD 8 0) 0) (m.getD (s.getD 9 0) 0) fun v0 v5 v10 v15 =>
    mix v1 v6 v11 v12 (m.getD (s.getD 10 0) 0) (m.getD (s.getD 11 0) 0) fun v1 v6 v11 v12 =>
    mix v2 v7 v8 v13 (m.getD (s.getD 12 0) 0) (m.getD (s.getD 13 0) 0) fun v2 v7 v8 v13 =>
    mix v3 v4 v9 v14 (m.getD (s.getD 14 0) 0) (m.getD (s.getD 15 0) 0) fun v3 v4 v9 v14 =>
    rounds m l v0 v1 v2 v3 v4 v5 v6 v7 v8 v9 v10 v11 v12 v13 v14 v15

/-- RFC 7693, 3.2: the compression function; `t` is the number of bytes so far. -/
def compress (h m : List Nat) (t : Nat) (last : Bool) : List Nat :=
  let g := fun i => h.getD i 0
  let w := fun i => iv64.getD i 0
  force (w 4 ^^^ (t % 2 ^ 64)) fun a => force (w 5 ^^^ (t / 2 ^ 64)) fun b => force (if last then w 6 ^^^ (2 ^ 64 - 1) else w 6) fun c =>
  let v := rounds m sigma (g 0) (g 1) (g 2) (g 3) (g 4) (g 5) (g 6) (g 7) (w 0) (w 1) (w 2) (w 3) a b c (w 7)
  (List.range 8).map fun i => h.getD i 0 ^^^ v.getD i 0 ^^^ v.getD (i + 8) 0

/-- RFC 7693, 3.3: the blocks of the message; `n` is the number of blocks left but one, `t` the number of bytes before. -/
def blake2bBlocks : Nat → Nat → List Nat → Bytes → List Nat
  | 0, t, h, l => forceList ((groups 8 16 (l ++ List.replicate (128 - l.length) 0)).map ofLE) fun m => compress h m (t + l.length) true
  | n + 1, t, h, l => forceList ((groups 8 16 (l.take 128)).map ofLE) fun m => forceList (compress h m (t + 128) false) fun h => blake2bBlocks n (t + 128) h (l.drop 128)

/-- RFC 7693, 3.3: blake2b with 32 bytes of output and no key. -/
def blake2b (l : Bytes) : Bytes :=
  let h := [0x6a09e667f3bcc908 ^^^ 0x01010020, 0xbb67ae8584caa73b, 0x3c6ef372fe94f82b, 0xa54ff53a5f1d36f1, 0x510e527fade682d1, 0x9b05688c2b3e6c1f, 0x1f83d9abfb41bd6b, 0x5be0cd19137e2179]
  let r := blake2bBlocks ((l.length - 1) / 128) 0 h l
  toBytesLE 8 (r.getD 0 0) ++ toBytesLE 8 (r.getD 1 0) ++ toBytesLE 8 (r.getD 2 0) ++ toBytesLE 8 (r.getD 3 0)

/-! ## sha-256 (FIPS 180-4) -/

/-- FIPS 180-4, 2.2.2, 3.2: operations on 32-bit words. -/
def add32 (a b : Nat) : Nat := (a + b) % 2 ^ 32
@[inherit_doc add32] def rot32 (a n : Nat) : Nat := (a >>> n) ||| ((a <<< (32 - n)) % 2 ^ 32)
@[inherit_doc add32] def not32 (a : Nat) : Nat := 2 ^ 32 - 1 - a

/-- FIPS 180-4, 4.2.2: the constants. -/
def k256 : List Nat := [
  0x428a2f98, 0x71374491, 0xb5c0fbcf, 0xe9b5dba5, 0x3956c25b, 0x59f111f1, 0x923f82a4, 0xab1c5ed5, 0xd807aa98, 0x12835b01, 0x243185be, 0x550c7dc3, 0x72be5d74, 0x80deb1fe, 0x9bdc06a7, 0xc19bf174,
  0xe49b69c1, 0xefbe4786, 0x0fc19dc6, 0x240ca1cc, 0x2de92c6f, 0x4a7484aa, 0x5cb0a9dc, 0x76f988da, 0x983e5152, 0xa831c66d, 0xb00327c8, 0xbf597fc7, 0xc6e00bf3, 0xd5a79147, 0x06ca6351, 0x14292967,
  0x27b70a85, 0x2e1b2138, 0x4d2c6dfc, 0x53380d13, 0x650a7354, 0x766a0abb, 0x81c2c92e, 0x92722c85, 0xa2bfe8a1, 0xa81a664b, 0xc24b8b70, 0xc76c51a3, 0xd192e819, 0xd6990624, 0xf40e3585, 0x106aa070,
  0x19a4c116, 0x1e376c08, 0x2748774c, 0x34b0bcb5, 0x391c0cb3, 0x4ed8aa4a, 0x5b9cca4f, 0x682e6ff3, 0x748f82ee, 0x78a5636f, 0x84c87814, 0x8cc70208, 0x90befffa, 0xa4506ceb, 0xbef9a3f7, 0xc67178f2]

/-- FIPS 180-4, 6.2.2, step 1: the message schedule; `l` are the words so far, the last first. -/
def schedule : Nat → List Nat → List Nat
  | 0, l => l.reverse
  | n + 1, l =>
    let g := fun i => l.getD (i - 1) 0
    let s1 := rot32 (g 2) 17 ^^^ rot32 (g 2) 19 ^^^ (g 2 >>> 10)
    let s0 := rot32 (g 15) 7 ^^^ rot32 (g 15) 18 ^^^ (g 15 >>> 3)
    force (add32 (add32 (add32 s1 (g 7)) s0) (g 16)) fun w => schedule n (w :: l)

/-- FIPS 180-4, 6.2.2, step 3: the rounds. -/
def sha256Rounds : List Nat → List Nat → (a b c d e f g h : Nat) → List Nat
  | w :: ws, k :: ks, a, b, c, d, e, f, g, h =>
    force (add32 (add32 (add32 (add32 h (rot32 e 6 ^^^ rot32 e 11 ^^^ rot32 e 25)) ((e &&& f) ^^^ (not32 e &&& g))) k) w) fun t1 =>
    force (add32 (rot32 a 2 ^^^ rot32 a 13 ^^^ rot32 a 22) ((a &&& b) ^^^ (a &&& c) ^^^ (b &&& c))) fun t2 =>
    force (add32 d t1) fun e' => force (add32 t1 t2) fun a' => sha256Rounds ws ks a' a b c e' e f g
  | _, _, a, b, c, d, e, f, g, h => [a, b, c, d, e, f, g, h]

/-- FIPS 180-4, 6.2.2: the blocks of the padded message. -/
def sha256Blocks : Nat → List Nat → Bytes → List Nat
  | 0, h, _ => h
  | n + 1, h, l =>
    let g := fun i => h.getD i 0
    forceList ((groups 4 16 (l.take 64)).map ofBE).reverse fun m =>
    forceList (List.zipWith add32 h (sha256Rounds (schedule 48 m) k256 (g 0) (g 1) (g 2) (g 3) (g 4) (g 5) (g 6) (g 7))) fun h => sha256Blocks n h (l.drop 64)

/-- FIPS 180-4, 5.1.1, 6.2: sha-256. -/
def sha256 (l : Bytes) : Bytes :=
  let n := (l.length + 9 + 63) / 64
  let p := l ++ [0x80] ++ List.replicate (64 * n - 9 - l.length) 0 ++ (toBytesLE 8 (8 * l.length)).reverse
  let r := sha256Blocks n [0x6a09e667, 0xbb67ae85, 0x3c6ef372, 0xa54ff53a, 0x510e527f, 0x9b05688c, 0x1f83d9ab, 0x5be0cd19] p
  let b := fun i => (toBytesLE 4 (r.getD i 0)).reverse
  b 0 ++ b 1 ++ b 2 ++ b 3 ++ b 4 ++ b 5 ++ b 6 ++ b 7

end TF.Hash
