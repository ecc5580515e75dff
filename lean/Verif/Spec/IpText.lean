import Verif.Spec.Reading
/-! # How IP addresses are written -/
namespace TF.Spec

/-- A number up to 255 in decimal digits, without leading zeros. -/
def OctetText (s : Str) (n : Nat) : Prop :=
  s ≠ [] ∧ (∀ c ∈ s, DecDigit c) ∧ (s.head? = some '0' → s = ['0']) ∧ n = writtenBy s ∧ n ≤ 255

/-- An IPv4 address: four such numbers with dots between them; its bytes. -/
def V4Text (s : Str) (bytes : Bytes) : Prop :=
  ∃ (a b c d : Str) (p q r t : UInt8), s = a ++ '.' :: (b ++ '.' :: (c ++ '.' :: d)) ∧ bytes = [p, q, r, t] ∧
    OctetText a p.toNat ∧ OctetText b q.toNat ∧ OctetText c r.toNat ∧ OctetText d t.toNat

/-- A group of 16 bits: one to four hexadecimal digits, in lower or upper case. -/
def GroupText (s : Str) (n : Nat) : Prop :=
  1 ≤ s.length ∧ s.length ≤ 4 ∧ ∃ ds : List Nat, List.Forall₂ HexValue s ds ∧ n = ds.foldl (fun n d => 16 * n + d) 0

/-- One or more groups with colons between them; if `dots`, the last two may be written as an IPv4 address. -/
inductive GroupsText (dots : Bool) : Str → List Nat → Prop
  | one (s : Str) (n : Nat) : GroupText s n → GroupsText dots s [n]
  | more (s : Str) (n : Nat) (t : Str) (ns : List Nat) : GroupText s n → GroupsText dots t ns → GroupsText dots (s ++ ':' :: t) (n :: ns)
  | dotted (s : Str) (p q r t : UInt8) : dots = true → V4Text s [p, q, r, t] → GroupsText dots s [p.toNat * 256 + q.toNat, r.toNat * 256 + t.toNat]

/-- An IPv6 address: eight groups; or at most seven, with a double colon, which stands for the missing ones, before, between or after them. -/
inductive V6Text : Str → List Nat → Prop
  | full (s : Str) (gs : List Nat) : GroupsText true s gs → gs.length = 8 → V6Text s gs
  | short (l : Str) (hi : List Nat) (r : Str) (lo : List Nat) : (l = [] ∧ hi = [] ∨ GroupsText false l hi) → (r = [] ∧ lo = [] ∨ GroupsText true r lo) →
      hi.length + lo.length ≤ 7 → V6Text (l ++ ':' :: ':' :: r) (hi ++ List.replicate (8 - (hi.length + lo.length)) 0 ++ lo)

/-- The bytes of groups of 16 bits, the higher byte first. -/
def groupBytes (gs : List Nat) : Bytes := (gs.map fun g => [UInt8.ofNat (g / 256), UInt8.ofNat (g % 256)]).flatten

/-- An IP address and its bytes: an IPv4 address, or an IPv6 address, which may have a scope id after a percent sign. The scope id is
any text without percent signs and slashes, and says nothing about the bytes. -/
def IpText (s : Str) (bytes : Bytes) : Prop :=
  V4Text s bytes ∨ ∃ (t : Str) (gs : List Nat), V6Text t gs ∧ bytes = groupBytes gs ∧
    (s = t ∨ ∃ scope : Str, scope ≠ [] ∧ '%' ∉ scope ∧ '/' ∉ scope ∧ s = t ++ '%' :: scope)

/-- The canonical text of a group: its shortest one, in lower case. -/
def CanonGroup (s : Str) (n : Nat) : Prop := GroupText s n ∧ (s.head? = some '0' → s = ['0']) ∧ ∀ c ∈ s, ¬ ('A' ≤ c ∧ c ≤ 'F')

/-- `n` zero groups from position `i` on. -/
def ZerosAt (gs : List Nat) (i n : Nat) : Prop := i + n ≤ gs.length ∧ ∀ k, i ≤ k → k < i + n → gs[k]? = some 0

/-- Texts with a colon between each two. -/
def colons (ps : List Str) : Str := List.intercalate [':'] ps

/-- The canonical text of an IPv6 address (RFC 5952): canonical groups, and if there are two or more zero groups side by side, a double colon for the
longest such run, the first one if there are several. -/
def CanonV6 (s : Str) (gs : List Nat) : Prop :=
  ((¬ ∃ i, ZerosAt gs i 2) ∧ ∃ ps, List.Forall₂ CanonGroup ps gs ∧ s = colons ps) ∨
  ∃ (i n : Nat) (ps qs : List Str), 2 ≤ n ∧ ZerosAt gs i n ∧ (∀ j m, ZerosAt gs j m → m ≤ n) ∧ (∀ j, ZerosAt gs j n → i ≤ j) ∧
    List.Forall₂ CanonGroup ps (gs.take i) ∧ List.Forall₂ CanonGroup qs (gs.drop (i + n)) ∧ s = colons ps ++ ':' :: ':' :: colons qs

end TF.Spec
