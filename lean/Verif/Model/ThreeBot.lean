import Verif.Model.Regex
import Verif.Model.Fulfillments
/-!
# types/ThreeBot.py and types/ERC20.py
-/
namespace TF

/-! ## Network addresses -/

/-- types/ThreeBot.py:209-211. -/
inductive NetKind | hostname | ipv4 | ipv6
  deriving DecidableEq, Repr

/-- `int(NetworkAddress.Type)`. -/
def NetKind.toNat : NetKind → Nat
  | .hostname => 0
  | .ipv4 => 1
  | .ipv6 => 2

/-- types/ThreeBot.py:79-119 `NetworkAddress` (`_type`, `_address`). -/
structure NetAddr where
  kind : NetKind
  addr : Bytes
  deriving DecidableEq, Repr

/-- types/ThreeBot.py:97-98 `HOSTNAME_REGEXP`. -/
def hostnameRe : Re :=
  .seq
    (.alt (.cls isAlpha)
    (.alt (.seq (.cls isAlpha) (.cls isAlpha))
    (.alt (.seq (.cls isAlpha) (.cls isNum))
    (.alt (.seq (.cls isNum) (.cls isAlpha))
      (.seq (.cls isAlnum) (.seq ((Re.cls fun c => isAlnum c || c == '-' || c == '_').rep 1 61) (.cls isAlnum)))))))
    (.seq (.cls (· == '.'))
      (.alt ((Re.cls isAlpha).rep 2 6)
        (.seq ((Re.cls fun c => isAlnum c || c == '-').rep 2 30) (.seq (.cls (· == '.')) ((Re.cls isAlpha).rep 2 3)))))

/-- The standard library module `ipaddress`: text → packed address (4 or 16 bytes), packed address → text. A parameter. -/
structure IpLib where
  parse : Str → Option Bytes
  print : Bytes → Str

/-- What a network address may be set to (types/ThreeBot.py:136-179). -/
inductive NetArg
  | none
  | str (s : Str)
  | int (i : Int)
  | net (a : NetAddr)
  | other

/-- types/ThreeBot.py:155-169: an IPv4 address as such, an IPv6 address unless it is IPv4-mapped. -/
def netOfPacked (b : Bytes) : NetAddr :=
  if b.length = 4 then ⟨.ipv4, b⟩
  else if b.take 12 = [0, 0, 0, 0, 0, 0, 0, 0, 0, 0, 255, 255] then ⟨.ipv4, b.drop 12⟩
  else ⟨.ipv6, b⟩

/-- `ipaddress.ip_address(n)` on an int: IPv4 below `2^32`, IPv6 below `2^128`, else `ValueError`. -/
def packedOfInt (i : Int) : Option Bytes :=
  if i < 0 then none
  else if i < 2^32 then some (toBytesBE 4 i.toNat)
  else if i < 2^128 then some (toBytesBE 16 i.toNat)
  else none

/-- types/ThreeBot.py:136-179: the `value` setter, and the constructor without network type. A `NetworkAddress` holding an IP address
stores `bytes`, which has no `copy` (line 175). -/
def NetAddr.new (L : IpLib) : NetArg → Res NetAddr
  | .none => .ok ⟨.hostname, []⟩
  | .str s =>
    if hostnameRe.matchDollar s then
      if s.length > 63 then .error .valueError else .ok ⟨.hostname, utf8 s⟩
    else match L.parse s with
    | some b => .ok (netOfPacked b)
    | Option.none => .error .valueError
  | .int i => match packedOfInt i with
    | some b => .ok (netOfPacked b)
    | Option.none => .error .valueError
  | .net a => match a.kind with
    | .hostname => .ok a
    | _ => .error .attributeError
  | .other => .error .typeError

/-- types/ThreeBot.py:119-126 `from_json`. -/
def NetAddr.fromJson (L : IpLib) : Json → Res NetAddr
  | .null => NetAddr.new L .none
  | .str s => NetAddr.new L (if s = [] then .none else .str s)
  | _ => .error .typeError

/-- types/ThreeBot.py:128-135, 188-189 `json`: hostnames decode to the ASCII text they were made of. -/
def NetAddr.json (L : IpLib) (a : NetAddr) : Str :=
  match a.kind with
  | .hostname => a.addr.map fun b => Char.ofNat b.toNat
  | _ => L.print a.addr

/-- types/ThreeBot.py:199-207 `rivine_binary_encode`. -/
def NetAddr.riv (a : NetAddr) : Out :=
  (rivInt8 ((a.kind.toNat ||| (a.addr.length <<< 2) : Nat) : Int)).andThen (.ok a.addr)
/-- types/ThreeBot.py:191-197 `sia_binary_encode`: the rivine encoding as an array. -/
def NetAddr.sia (a : NetAddr) : Out := a.riv.nested .ok
/-- A network address as a value given to an encoder. -/
def NetAddr.val (a : NetAddr) : Val := .obj a.sia a.riv

/-! ## Bot names -/

/-- One group of a bot name: a letter, `lo` to `hi` letters, digits or dashes, a letter or digit. -/
def nameGroupRe (lo hi : Nat) : Re :=
  .seq (.cls isAlpha) (.seq ((Re.cls fun c => isAlnum c || c == '-').rep lo hi) (.cls isAlnum))

/-- types/ThreeBot.py:214-215 `BotName.REGEXP`. -/
def botNameRe : Re := .seq (nameGroupRe 3 61) (.star (.seq (.cls (· == '.')) (nameGroupRe 3 55)))

/-- types/ThreeBot.py:213-223 `BotName`; `_value = None` and `''` are indistinguishable (236-242). -/
structure BotName where
  value : Str
  deriving DecidableEq, Repr

/-- What a bot name may be set to (types/ThreeBot.py:244-262). -/
inductive NameArg
  | none
  | str (s : Str)
  | name (n : BotName)
  | other

/-- types/ThreeBot.py:244-262: the `value` setter. Neither `str` nor `None` has a `copy` method (line 258). -/
def BotName.new : NameArg → Res BotName
  | .none => .ok ⟨[]⟩
  | .str s =>
    if s.length > 63 then .error .valueError
    else if !botNameRe.matchDollar s then .error .valueError
    else .ok ⟨s⟩
  | .name _ => .error .attributeError
  | .other => .error .typeError

/-- types/ThreeBot.py:225-232 `from_json`. -/
def BotName.fromJson : Json → Res BotName
  | .null => BotName.new .none
  | .str s => BotName.new (if s = [] then .none else .str s)
  | _ => .error .typeError

/-- types/ThreeBot.py:273-284: a slice in both encodings. -/
def BotName.val (n : BotName) : Val := .obj (siaSliceStr n.value) (rivSliceStr n.value)

/-! ## ERC20 -/

/-- Drop an optional sign. -/
def dropSign : Str → Str
  | '+' :: r => r
  | '-' :: r => r
  | t => t

/-- Drop an optional `0x` prefix and one underscore after it. -/
def dropHexPrefix : Str → Str
  | '0' :: 'x' :: '_' :: r => r
  | '0' :: 'X' :: '_' :: r => r
  | '0' :: 'x' :: r => r
  | '0' :: 'X' :: r => r
  | t => t

/-- `int(s, 16)` as used at types/ERC20.py:31-33: an optional sign, an optional `0x` prefix and hex digits with single
underscores between, surrounded by white space. Only whether it succeeds matters. -/
def pyIntHexOk (s : Str) : Bool := hexDigits false (dropHexPrefix (dropSign (intText s)))
where
  /-- hex digits with single underscores between them -/
  hexDigits : Bool → Str → Bool
    | prev, [] => prev
    | prev, c :: r =>
      if (hexVal c).isSome then hexDigits true r
      else if c == '_' && prev then hexDigits false r
      else false

/-- types/ERC20.py:21-40 `ERC20Address.is_valid_value` on a str. -/
def erc20ValidStr (s : Str) : Bool :=
  let v := if s.take 2 = ['0', 'x'] ∨ s.take 2 = ['0', 'X'] then s.drop 2 else s
  if v.length ≠ 40 then false else pyIntHexOk v

/-- types/ERC20.py:20-40 `is_valid_value` of any value; an `ERC20Address` object is given by the bytes it holds. -/
inductive Erc20Candidate
  | str (s : Str)
  | bytes (b : Bytes)
  | address (b : Bytes)
  | other

@[inherit_doc Erc20Candidate]
def Erc20Candidate.valid : Erc20Candidate → Bool
  | .str s => erc20ValidStr s
  | .bytes b => b.length == 20
  | .address b => b.length == 20
  | .other => false

/-- types/ERC20.py:18-19, 61-62: `ERC20Address(value)` / `ERC20Hash(value)` with size 20 / 32: the stored bytes. -/
def erc20New (size : Nat) (v : BVal) : Res Bytes := do return (← BinData.new v (some size) .hexprefix).value

/-- types/ERC20.py:52-59, 64-71 `from_json`. -/
def erc20FromJson (size : Nat) : Json → Res Bytes
  | .null => erc20New size .none
  | .str s => erc20New size (if s = [] then .none else .str s)
  | _ => .error .typeError

/-- types/PrimitiveTypes.py:93-100 for these types. -/
def erc20Str (b : Bytes) : Str := '0' :: 'x' :: toHex b

/-- An ERC20 address or hash as a value given to an encoder (fixed size, an array). -/
def erc20Val (b : Bytes) : Val := .obj (.ok b) (.ok b)

/-- types/ERC20.py:42-50 `from_unlockhash`: the last 20 bytes of the digest. -/
def erc20OfUnlockHash (H : Bytes → Bytes) (u : UnlockHash) : Res Bytes := do
  let e ← u.sia.toRes
  erc20New 20 (.bytes ((H e).drop 12))

end TF
