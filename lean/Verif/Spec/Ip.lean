import Verif.Model.ThreeBot
/-! # What is assumed of Python's `ipaddress` module, and how network addresses are written on the wire -/
namespace TF.Spec

/-- `ip_address(text)` gives 4- or 16-byte addresses, its text form parses back to the same address, and the text form of an address is
not a hostname (it is `1.2.3.4` or contains a colon). -/
structure LawfulIp (L : IpLib) : Prop where
  size : ∀ s b, L.parse s = some b → b.length = 4 ∨ b.length = 16
  roundtrip : ∀ b, b.length = 4 ∨ b.length = 16 → L.parse (L.print b) = some b
  notHost : ∀ b, b.length = 4 ∨ b.length = 16 → hostnameRe.matchDollar (L.print b) = false ∧ L.print b ≠ []

/-- The published wire format: the two low bits of the first byte give the kind (0 hostname, 1 IPv4, 2 IPv6), the other six the number
of bytes that follow. -/
def netDecode : Bytes → Option (Nat × Bytes × Bytes)
  | [] => none
  | h :: rest =>
    if h.toNat / 4 ≤ rest.length then some (h.toNat % 4, rest.take (h.toNat / 4), rest.drop (h.toNat / 4)) else none

/-- The IPv4-mapped IPv6 address `::ffff:a.b.c.d`. -/
def mappedV4 (b : Bytes) : Bytes := [0, 0, 0, 0, 0, 0, 0, 0, 0, 0, 255, 255] ++ b

end TF.Spec
