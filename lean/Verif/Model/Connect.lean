import Verif.Model.Client
/-!
# TFChainClient.py:22-144, 237-252: networks, creating a client, submitting a transaction
-/
namespace TF

/-- TFChainClient.py:22-38 `NetworkType` (`==` compares the values: line 35 with the reflected call). Only whole-number values are modelled. -/
structure NetworkType where
  value : Int
  deriving DecidableEq, Repr

/-- TFChainClient.py:75. -/
def NetworkType.standard : NetworkType := ⟨0⟩
/-- TFChainClient.py:76. -/
def NetworkType.testnet : NetworkType := ⟨1⟩
/-- TFChainClient.py:77. -/
def NetworkType.devnet : NetworkType := ⟨2⟩

/-- `s.lower()` for ASCII letters. (No other letter is turned into one of those of the names compared with.) -/
def lowerStr (s : Str) : Str := s.map Char.toLower

/-- TFChainClient.py:40-50 `NetworkType.from_str` on a str; `none` is Python's `None`. -/
def NetworkType.fromStr (s : Str) : Option NetworkType :=
  let l := lowerStr s
  if l = "standard".toList ∨ l = "std".toList then some .standard
  else if l = "testnet".toList then some .testnet
  else if l = "devnet".toList then some .devnet
  else none

/-- TFChainClient.py:52-55 `minimum_miner_fee`. -/
def NetworkType.minimumMinerFee (n : NetworkType) : Res Currency :=
  if n = .devnet then Currency.set (.str "1.0".toList) else Currency.set (.str "0.1".toList)

/-- TFChainClient.py:57-73 `default_explorer_addresses`. -/
def NetworkType.defaultExplorers (n : NetworkType) : List Str :=
  if n = .standard then
    ["https://explorer.threefoldtoken.com".toList, "https://explorer2.threefoldtoken.com".toList,
      "https://explorer3.threefoldtoken.com".toList, "https://explorer4.threefoldtoken.com".toList]
  else if n = .testnet then
    ["https://explorer.testnet.threefoldtoken.com".toList, "https://explorer2.testnet.threefoldtoken.com".toList]
  else ["http://localhost:23110".toList]

/-- The `network_type` argument. -/
inductive NetworkArg
  | none
  | str (s : Str)
  | type (n : NetworkType)
  | other

/-- The `explorer_client` argument: nothing (or something falsy), a `TFChainExplorerClient` with its addresses, or something else. -/
inductive ExplorerArg
  | none
  | client (addresses : List Address)
  | other

/-- A client: its network (`none` is Python's `None`) and the addresses of its explorers. -/
structure ClientConfig where
  network : Option NetworkType
  explorers : List Address
  deriving DecidableEq, Repr

/-- TFChainClient.py:84-89. -/
def NetworkArg.read : NetworkArg → Res (Option NetworkType)
  | .none => .ok Option.none
  | .str s => .ok (NetworkType.fromStr s)
  | .type n => .ok (some n)
  | .other => .error .typeError

/-- TFChainClient.py:100-103: the network the explorers say they belong to. -/
def networkOf (constants : Json) : Res (Option NetworkType) := do
  match ← (← constants.getD "chaininfo" (.obj [])).getD "NetworkName" (.str "standard".toList) with
  | .str s => return NetworkType.fromStr s
  | _ => throw .typeError

/-- TFChainClient.py:83-103 `TFChainClient.__init__`; `constants` is what the explorers answer at `/explorer/constants`. -/
def clientNew (constants : Res Json) (explorer : ExplorerArg) (network : NetworkArg) : Res ClientConfig := do
  let n ← network.read
  match explorer with
  | .none =>
    let n := n.getD .standard
    return ⟨some n, n.defaultExplorers.map some⟩
  | .other => throw .typeError
  | .client addresses => match n with
    | some n => return ⟨some n, addresses⟩
    | none => return ⟨← networkOf (← constants), addresses⟩

/-- TFChainClient.py:142-144 `minimum_miner_fee`: `None` has no such attribute. -/
def ClientConfig.minimumMinerFee (c : ClientConfig) : Res Currency :=
  match c.network with
  | some n => n.minimumMinerFee
  | none => .error .attributeError

/-! ## Submitting -/

/-- What can be submitted: a transaction object, or its JSON in some form. -/
inductive PutArg
  | tx (t : Tx)
  | data (d : PostData)

/-- The world behind `transaction_put`: `ipaddress` and blake2b, `json_dumps`, `json_loads`, the explorers (`ask url data` is what comes of posting),
and their addresses in the order in which they are tried. -/
structure Poster where
  L : IpLib
  H : Bytes → Bytes
  dumps : Json → Str
  loads : Bytes → Res Json
  ask : Str → Bytes → Reply
  order : List Address

/-- TFChainClient.py:245. -/
def poolEndpoint : Str := "/transactionpool/transactions".toList

/-- TFChainClient.py:243-244: what is posted. -/
def PutArg.toData (L : IpLib) (H : Bytes → Bytes) : PutArg → Res PostData
  | .tx t => do return .dict (← t.json L H)
  | .data d => .ok d

/-- TFChainClient.py:247-252: the id in the answer. -/
def readPosted (resp : Json) : Res Hash := keyErrorInvalid do Hash.new (← resp.idx "transactionid").bval

/-- TFChainClient.py:237-252 `transaction_put` with TFChainExplorerClient.py:62-102: the explorers the data was sent to, in order, and what was
returned (whose text is returned) or raised. -/
def Poster.put (P : Poster) (a : PutArg) : List Str × Res Hash :=
  match a.toData P.L P.H with
  | .error e => ([], .error e)
  | .ok d =>
    let r := explorerPost P.dumps (fun addr => P.ask (addr ++ poolEndpoint)) d P.order
    (r.1, do readPosted (← P.loads (← r.2)))

end TF
