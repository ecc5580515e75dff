# Design

A Lean 4 model of GlenDC/tfchain-py (`/repo/tfchain`), read as text at the pinned commit. Nothing is run; the only tie
between code and model is the line citation on every definition, and the examples in `Props/Vectors.lean`: the transactions, conditions, fulfillments, trees and
amounts in the tests of the repository, and transactions of the test network in the explorer answers these tests use, give in the model (with blake2b as
`Model/Hash.lean` defines it) the encodings, signature hashes, output ids, addresses and fees which the tests and the network expect. (This file is written by
`tools/design.py`, `Props/Vectors.lean` by `tools/vectors.py`.)

## Layout

* `lean/Verif/Model/*` – executable model, function by function, exceptions as values (`Except Err α`).
* `lean/Verif/Spec/*` – small independent specifications: decoders of the wire formats, the recursive Merkle root, amounts as numbers
  of smallest units, what a payment, a contract, a history or a fitting transaction is.
* `lean/Verif/Lemmas/*` – proof machinery.
* `lean/Verif/Props/*` – the property theorems `Cnn_...`, with `example`s beside them showing that their hypotheses are met.
* `properties.jsonl` (by `tools/props.py`), `MANIFEST.json` (by `tools/manifest.py`, from the theorem names), `AXIOMS.md` (axioms of every
  property theorem), `seeded/LOG.jsonl` (wrong programs tried against the theorems).

## Modelling conventions

* `bytes`/`bytearray` = `List UInt8`; `str` = `List Char`; `int` = `Int`/`Nat` (Python ints are unbounded).
* A Python exception is a constructor of `Err` naming its class; messages are dropped. A method that changes its object and then raises
  returns the changed value together with the exception.
* Mutable objects become values, a mutating method returns the new value. Sharing of objects between two holders is modelled only in `Model/Sharing.lean` (fulfillments of coin inputs: C114) and `Model/Amounts.lean` (amounts of outputs: C116).
* A wallet operation is an `Outcome`: the result or exception *and* the list of transactions posted before it, so that "nothing was
  submitted" is a statement about runs that raise, too.
* `blake2b-256`, `sha256`, `ed25519`, Python's `str` hash, the `ipaddress` library, the clock, the calendar (`strptime`, `mktime`), `float`
  arithmetic, random numbers and the explorers' answers are parameters. (`Model/Hash.lean` defines blake2b and sha256, `blake2b_digest` and `sha256_digest` show
  that they meet the assumption; the theorems hold for every hash function that does.) The only assumption about a digest is its length (32 bytes), never
  collision freedom: where a user-level claim needs it, the theorem is about the hashed byte strings, or says "no two keys of the seed have
  the same address". About signatures: verifying accepts what signing made, nothing else is assumed. About `ipaddress`: it parses
  what it prints (`LawfulIp`); for CPython 3.11's `ipaddress`, which `Model/Ip.lean` models, this is proved (C129_lawful).
  About the calendar nothing is assumed in C101; C130 is about `strptime`, `mktime` and `strftime` as `Model/Calendar.lean` models them, in any time zone.
  About `float` nothing is assumed in C69 and C101; C131 is about `float` and `timedelta` as `Model/Float.lean` models them.
* `decimal` is modelled with its 28-digit context and half-even rounding, signs, exponents, infinities and NaN.
* The models of Python's built-ins (`int`, `int(…, 16)`, `Decimal` and its arithmetic, `str.strip`, `upper`, hexadecimal, base64, SHA-256, `json.loads`, `strptime`, `gmtime`, `float` and `timedelta`,
  `timedelta`, the regular expressions) are compared with CPython 3.11 on random inputs, including digits and white space of other scripts, by
  `tools/fuzz.py` (100 000 inputs, no difference). Not modelled: exponents of `Decimal` beyond 10^18, the 4300-digit limit of `int`.
* A Python dict is an association list in insertion order, a set a list without repetition.

## What is modelled

| source | model | not modelled in it |
|---|---|---|
| encoders/sia.py, rivine.py, `__init__.py`, exceptions.py | Encoders, Py | generators given to `add_slice`; objects defining both encodings inconsistently |
| crypto/merkletree.py | Merkle | `sum_` on a file object |
| types/PrimitiveTypes.py, BaseDataType.py | Primitive, Decimal, Text | `Currency` from `float` (refused by the code); locale |
| types/CryptoTypes.py | Crypto | – |
| types/ConditionTypes.py | Conditions, Duration, Moment | `timedelta`/`datetime` locks: Moment (C132); elsewhere they are represented by the integer they give |
| types/FulfillmentTypes.py | Fulfillments | – |
| types/IO.py | IO | – |
| types/ThreeBot.py, ERC20.py | ThreeBot, Regex, Transactions | the test method of the factory |
| types/AtomicSwap.py | Swap, Contract | – |
| types/transactions/*.py | Transactions, TxJson, TxBuild, JsonText | `__str__` |
| TFChainWallet.py | Balance, BalanceObjects, Keys, Words, Wallet, WalletOps, Swap, Report | the random bytes of a new seed (any 32 bytes); the address list is not extended by the key `record_new`/`address_register` may create |
| TFChainClient.py | Client, Explorer | – |
| TFChainExplorerClient.py, internal/HttpClient.py | Explorer, JsonText, Url | sockets, TLS, proxies, redirections, authentication, downloads. Elsewhere the URL is the address followed by the endpoint; which request it becomes is in Url (C133). In the properties about explorer answers these are JSON values; how the bytes of an answer become one is in JsonText (C122) |
| internal/jsutils.py | Duration, Calendar, Float, Json, JsonText (what Python's `json` does with the options used; not floats, lone surrogates, the limits on nesting and on the digits of an int) | time conversions used only for display; random ids |
| errors.py | Py (class names), Errors (what the exceptions carry) | messages (only that printing a date in one may raise); the response in `ExplorerInvalidResponse` |

## Plan and result per property

Model: the modules of `lean/Verif/Model` the property is about. Proof: how it is proved. Result: `proved`, or `partial` when the
full statement is false of the code (then the negation is proved, suffix `_false`, `_raises`, ... , and what remains true is proved
with suffix `_partial`) or when a bound remains; the last column says which.

| id | title | model | proof | theorems in | result |
|---|---|---|---|---|---|
| C01 | Sia integers: exact range, exact bytes | Encoders | independent decoders of the wire formats (Spec/Encoding); induction on value lists | Props/Encoders | proved. proved for every integer |
| C02 | Rivine integers: exact range, exact bytes | Encoders | independent decoders of the wire formats (Spec/Encoding); induction on value lists | Props/Encoders | proved. proved for every integer and each width 1,2,3,4,8 |
| C03 | Rivine slice-length prefix is decodable and canonical | Encoders | independent decoders of the wire formats (Spec/Encoding); induction on value lists | Props/Encoders | proved. proved for every length |
| C04 | Encoded byte slices are self-delimiting | Encoders | independent decoders of the wire formats (Spec/Encoding); induction on value lists | Props/Encoders | proved. proved for sia (< 2^64) and rivine (< 2^29) slices |
| C05 | Text slices are self-delimiting | Encoders | independent decoders of the wire formats (Spec/Encoding); induction on value lists | Props/Encoders | partial. False of the code for non-ASCII text: the prefix counts code points while the body is UTF-8 (C05_text_slice_false); proved for texts whose UTF-8 size equals their length. |
| C06 | Encoders are append-only and compositional | Encoders | independent decoders of the wire formats (Spec/Encoding); induction on value lists | Props/Encoders | proved. proved for every encoder state and every list |
| C07 | Merkle root is the standard unbalanced binary Merkle root | Merkle | invariant of the stack of subtrees against a recursively defined root (Spec/Merkle); induction on pushes | Props/Merkle | proved. proved for every hash function and every leaf list |
| C08 | Merkle tree memory is logarithmic and well-shaped | Merkle | invariant of the stack of subtrees against a recursively defined root (Spec/Merkle); induction on pushes | Props/Merkle | proved. proved for every leaf list |
| C09 | The root of an empty Merkle tree is defined | Merkle | invariant of the stack of subtrees against a recursively defined root (Spec/Merkle); induction on pushes | Props/Merkle | partial. False of the code: root() of an empty tree raises TypeError (C09_empty_root_raises); on non-empty trees it is always defined. |
| C10 | BinaryData never holds a wrong-size value | Primitive, Text | hexadecimal and base64 decoding inverts encoding; induction on operation histories | Props/Primitive | proved. proved for every history |
| C11 | BinaryData text form round-trips | Primitive, Text | hexadecimal and base64 decoding inverts encoding; induction on operation histories | Props/Primitive | proved. proved for every byte string and each of the three encodings |
| C12 | Hash text form round-trips | Primitive, Text | hexadecimal and base64 decoding inverts encoding; induction on operation histories | Props/Primitive | partial. False for the default Hash (empty value printed as 64 zeros); proved for every 32-byte Hash. |
| C13 | A Currency is never negative nor finer than 1e-9 | Primitive, Text | hexadecimal and base64 decoding inverts encoding; induction on operation histories | Props/Primitive | proved. proved for every history of operations |
| C14 | A refused Currency raises the documented error | Primitive, Text | hexadecimal and base64 decoding inverts encoding; induction on operation histories | Props/Primitive | partial. False: the setter names undefined classes, so NameError is raised; the refusal itself is proved. |
| C15 | Currency arithmetic is exact | Decimal, Primitive | algebra on (sign, coefficient, exponent) with 28-digit half-even rounding, against numbers of smallest units (Spec/Amount) | Props/Primitive, Props/Rounding | partial. False beyond 28 significant digits (decimal context); proved within. For amounts of any size the exact outcome is proved: the result is the exact sum, difference or product rounded to 28 digits, half to even (C15_*_rounded). A product is also refused when the stored decimals add up to more than nine, even when the product itself is a whole number of units (C15_mul_spelling_false). |
| C16 | Reflected Currency subtraction | Decimal, Primitive | algebra on (sign, coefficient, exponent) with 28-digit half-even rounding, against numbers of smallest units (Spec/Amount) | Props/Primitive | partial. False of the code: __rsub__ returns c - x. |
| C17 | Currency JSON round-trips | Decimal, Primitive | algebra on (sign, coefficient, exponent) with 28-digit half-even rounding, against numbers of smallest units (Spec/Amount) | Props/Primitive, Props/Rounding | partial. False past 28 significant digits; proved within. For any size, what comes back is the amount rounded to 28 digits (C17_currency_json_rounded). |
| C18 | Currency text form round-trips | Decimal, Primitive | algebra on (sign, coefficient, exponent) with 28-digit half-even rounding, against numbers of smallest units (Spec/Amount) | Props/Primitive | proved. proved for every good currency |
| C19 | Currency and Blockstake binary encodings are minimal and invertible | Decimal, Primitive | algebra on (sign, coefficient, exponent) with 28-digit half-even rounding, against numbers of smallest units (Spec/Amount) | Props/Primitive | proved. proved for every amount in the representable range |
| C20 | Blockstake values are non-negative and JSON round-trips | Primitive, Stakes | Python's grammar for whole numbers (Spec/Stakes) against the scanner, by induction on the text; algebra for the rest | Props/Primitive, Props/Stakes | proved. Proved for every int and every text (Python's grammar for whole numbers). Outside the property: a Currency is accepted as a block stake too and the result can be neither encoded nor taken as a number (C20_currency_false). |
| C21 | PublicKey text form round-trips | Crypto, Conditions, Text | round trips of texts, exact sets of accepted texts (Spec/Address) | Props/Conditions | partial. False: a key with an empty payload is accepted; the rest proved. |
| C22 | Addresses round-trip through text | Crypto, Conditions, Text | round trips of texts, exact sets of accepted texts (Spec/Address) | Props/Conditions | proved. proved for the canonical addresses |
| C23 | Only checksummed addresses are accepted | Crypto, Conditions, Text | round trips of texts, exact sets of accepted texts (Spec/Address) | Props/Conditions, Props/Stakes | partial. False: the nil type is not checked, type byte is read as decimal, blank hash accepted; the rest proved. |
| C24 | The default (nil) address behaves as one value | Crypto, Conditions, Text | round trips of texts, exact sets of accepted texts (Spec/Address) | Props/Conditions | partial. False of the code (default nil address does not round trip). |
| C25 | A multi-signature address does not depend on owner order | Conditions, Json | prefix-free decoding of encodings, permutation invariance of sorting, JSON round trips by cases and induction on nesting | Props/Conditions | partial. Unlock hash order-independence proved; false when an owner is an empty nil address. |
| C26 | A time lock does not change the receiving address | Conditions, Json | prefix-free decoding of encodings, permutation invariance of sorting, JSON round trips by cases and induction on nesting | Props/Conditions | proved. proved |
| C27 | Time-lock boundary and monotonicity | Conditions, Json | prefix-free decoding of encodings, permutation invariance of sorting, JSON round trips by cases and induction on nesting | Props/Conditions | proved. proved |
| C28 | Condition JSON round-trips | Conditions, Json | prefix-free decoding of encodings, permutation invariance of sorting, JSON round trips by cases and induction on nesting | Props/Conditions | partial. False for default/unset conditions; proved for full conditions. |
| C29 | Condition binary encodings are injective | Conditions, Json | prefix-free decoding of encodings, permutation invariance of sorting, JSON round trips by cases and induction on nesting | Props/Conditions | partial. False for empty hashes; proved for full conditions. |
| C30 | Recipient notation maps to the right condition | Conditions, Json | prefix-free decoding of encodings, permutation invariance of sorting, JSON round trips by cases and induction on nesting | Props/Conditions, Props/Reading | proved. proved |
| C31 | A signature request signs at most once | Fulfillments, IO, Json | state machines of fulfillments; invariants over operation lists (Spec/Signing); JSON round trips | Props/Fulfillments | proved. proved for every history |
| C32 | Only the owner's key can fulfil a request | Fulfillments, IO, Json | state machines of fulfillments; invariants over operation lists (Spec/Signing); JSON round trips | Props/Fulfillments | proved. proved |
| C33 | Multi-signature fulfillment: distinct signers and threshold | Fulfillments, IO, Json | state machines of fulfillments; invariants over operation lists (Spec/Signing); JSON round trips | Props/Fulfillments | partial. False for the None key; proved for present keys. |
| C34 | Every signer counted by a multi-signature fulfillment is an owner | Fulfillments, IO, Json | state machines of fulfillments; invariants over operation lists (Spec/Signing); JSON round trips | Props/Fulfillments | partial. False via add_pair/JSON; proved through signature requests. |
| C35 | Fulfillment JSON round-trips | Fulfillments, IO, Json | state machines of fulfillments; invariants over operation lists (Spec/Signing); JSON round trips | Props/Fulfillments | partial. False for unsigned fulfillments; proved for signed ones. |
| C36 | Inputs and outputs JSON round-trip | Fulfillments, IO, Json | state machines of fulfillments; invariants over operation lists (Spec/Signing); JSON round trips | Props/TxJson | partial. False for inputs without parent id and amounts of 29 digits (C36_io_json_false); proved for complete inputs and outputs of less than 10^28 units. |
| C37 | Version dispatch | Transactions, TxJson, TxBuild | functions of a transaction without its fulfillments; decoders of preimages (Spec/TxSpec); packed counts by arithmetic | Props/TxBuild | proved. proved for every JSON value |
| C38 | What is signed does not depend on the signatures | Transactions, TxJson, TxBuild | functions of a transaction without its fulfillments; decoders of preimages (Spec/TxSpec); packed counts by arithmetic | Props/Signing | partial. False for legacy (version 0 style) V1 data, whose preimages contain the signer keys; proved for every other transaction and every signing history. |
| C39 | Signed bytes determine the payment (V1) | Transactions, TxJson, TxBuild | functions of a transaction without its fulfillments; decoders of preimages (Spec/TxSpec); packed counts by arithmetic | Props/Preimage | proved. proved for all pairs of version-1 (not legacy) transactions ready for signing, same extra objects |
| C40 | Transaction JSON round-trips | Transactions, TxJson, TxBuild | functions of a transaction without its fulfillments; decoders of preimages (Spec/TxSpec); packed counts by arithmetic | Props/TxJson | partial. False: versions 145, 146, 210 read the signature back without as_array and so change their binary encoding and id; legacy transactions come back as version 1; an unsigned registration has no JSON (C40_tx_json_false). Proved for every complete transaction: version, JSON form and signature preimages for all nine versions, binary encoding for six. |
| C41 | Output identifiers are pairwise distinct by construction | Transactions, TxJson, TxBuild | functions of a transaction without its fulfillments; decoders of preimages (Spec/TxSpec); packed counts by arithmetic | Props/Preimage | partial. Distinctness proved for all transactions and indices; coin index check proved; false for block stakes: the check uses the number of coin outputs (C41_blockstake_index_false). |
| C42 | Arbitrary data never exceeds 83 bytes | Transactions, TxJson, TxBuild | functions of a transaction without its fulfillments; decoders of preimages (Spec/TxSpec); packed counts by arithmetic | Props/TxBuild | proved. proved for every history of data assignments |
| C43 | A transaction reported fulfilled has every input fulfilled | Transactions, TxJson, TxBuild | functions of a transaction without its fulfillments; decoders of preimages (Spec/TxSpec); packed counts by arithmetic | Props/Signing | partial. False of the code: blockstake inputs are ignored (C43_is_fulfilled_false); exact characterisation of the rest proved. |
| C44 | 3Bot registration fee | Transactions, TxJson, TxBuild | functions of a transaction without its fulfillments; decoders of preimages (Spec/TxSpec); packed counts by arithmetic | Props/TxBuild | proved. proved for every registration in the representable range |
| C45 | 3Bot update and name-transfer fees | Transactions, TxJson, TxBuild | functions of a transaction without its fulfillments; decoders of preimages (Spec/TxSpec); packed counts by arithmetic | Props/TxBuild | proved. proved for every update/transfer in the representable range |
| C46 | 3Bot header bytes are decodable | Transactions, TxJson, TxBuild | functions of a transaction without its fulfillments; decoders of preimages (Spec/TxSpec); packed counts by arithmetic | Props/TxBuild | proved. proved for every months/flags/count combination |
| C47 | 3Bot list limits are enforced | Transactions, TxJson, TxBuild | functions of a transaction without its fulfillments; decoders of preimages (Spec/TxSpec); packed counts by arithmetic | Props/TxBuild | partial. False of the code: the name transfer's setter appends instead of replacing and JSON loading does not apply limits; proved through the setters of registration/update. |
| C48 | Spent outputs are never spendable | Balance | invariants over histories of output_add and balance_add | Props/Balance | proved. proved for a single balance over every history and for a balance of several wallets (reports of one id agree) |
| C49 | Each output is counted once | Balance | invariants over histories of output_add and balance_add | Props/Balance | partial. False: an output reported confirmed and then unconfirmed is counted twice; proved for histories where confirmations are not taken back, and the amounts split exactly into available and locked. |
| C50 | Merging balances preserves spentness | Balance | invariants over histories of output_add and balance_add | Props/Balance | partial. False: the merge checks nothing across the balances; proved: spent ids stay known, nothing new is counted, and no spent output is offered when neither balance counts what the other knows spent. |
| C51 | Funding conserves value | Balance | loop invariants of fund (Lemmas/Fund, FundTotal) | Props/Fund | partial. False above 28 digits (decimal rounding); proved when the offered outputs stay below 10^19 TFT. |
| C52 | Funding respects the 99-input limit and never reuses an output | Balance | loop invariants of fund (Lemmas/Fund, FundTotal) | Props/Fund | partial. The limit of 99 inputs is proved unconditionally. Distinct inputs: false when an output is counted twice (C49), proved when the wallets offer no output twice. |
| C53 | Funding uses only spendable outputs of the wallet | Balance | loop invariants of fund (Lemmas/Fund, FundTotal) | Props/Fund | partial. Eligibility and never-spent are proved. Never-locked is false for multi-signature wallets (their balances never learn the chain state), proved for balances that know the chain. |
| C54 | Funding succeeds when the money is there | Balance | loop invariants of fund (Lemmas/Fund, FundTotal) | Props/Fund, Props/FundSingle | partial. False for mixed personal and multi-signature sources with more than 99 outputs; proved for personal sources of any size, for a source of one multi-signature wallet of any size, and for any sources with at most 99 outputs. |
| C55 | Draining partitions the wallet | Balance | induction on the drain loop | Props/Drain | partial. Spends exactly the selected outputs: proved unconditionally. Each once: false after a confirmation is taken back (C49), proved otherwise. Amounts: proved below 10^19 TFT. |
| C56 | A payment transaction balances | Wallet | inversion of every operation to the funding and the created outputs (Spec/Payment) | Props/Amount, Props/Huge, Props/Payment | partial. coins_send, the transaction builder (after any history of output_add calls) and sending to an ERC20 address: whatever is posted or returned pays exactly what was asked, the remainder goes to the refund address, and inputs = outputs + fee. False beyond 28 decimal digits (C56_huge_false): proved when the amounts of the wallet add up to less than 10^28 smallest units. |
| C57 | Nothing is submitted unless fully signed | Wallet, WalletOps, Fulfillments | invariant of the signing loop (Lemmas/WalletSign); case analysis of outcomes | Props/Payment, Props/WalletOps | proved. All wallet operations that submit (coins_send, builder, ERC20 sends, minter, 3Bot, ERC20 registration, transaction_sign's helpers): at most one transaction is posted, only with all signatures present and genuine; True is returned iff posted; False only when a signature is missing. |
| C58 | Key scan keeps every used key | Keys | invariant of scans, termination measure; injectivity of the derivation preimage | Props/Keys | proved. Proved for every pattern of used addresses: the scan looks at blocks of key_scan_count keys (Spec.LookedAt), finds every used key it looks at, adds nothing else, ends if finitely many keys are used, and raises no KeyError in any reachable state (no two keys of the seed having the same address). |
| C59 | Key derivation is deterministic and collision-free at the preimage level | Keys | invariant of scans, termination measure; injectivity of the derivation preimage | Props/Keys | proved. blake2b and ed25519 are parameters; preimages proved injective. Holds for all histories of scans (also interrupted) and key requests. key_start_index is ignored by the code (recorded in DESIGN.md). |
| C60 | Explorer failover | Explorer | induction on the list of addresses | Props/Explorer | proved. Every list of explorers and every pattern of answers; the HTTP layer is abstracted to answer/refused/unreachable/bad URL. |
| C61 | coin_output_get returns the requested output | Client | inversion of answer processing, histories as lists of entries (Spec/History, Spec/Client) | Props/Lookup | partial. The returned output is the one listed under the id in the returned creating transaction (proved). False: the returned spending transaction need not spend it (C61_spend_false), outputs of ERC20 withdrawals are never found (C61_withdrawal_false), outputs spent in the creating block or by an unconfirmed transaction may not be found (C61_same_block_false). |
| C62 | Address history is ordered | Client | inversion of answer processing, histories as lists of entries (Spec/History, Spec/Client) | Props/Answers, Props/History | proved. For heights below 2^63-1 (the sort key of unconfirmed transactions is sys.maxsize). Answers of the documented form are accepted (C62_accepted). |
| C63 | Explorer balances agree with the outputs | Client | inversion of answer processing, histories as lists of entries (Spec/History, Spec/Client) | Props/Answers, Props/History | partial. Proved for coherent histories (an id stands for one output). False: ERC20 withdrawals lose their output id, so several collapse into one and spent ones stay in the balance; a mint condition definition empties the balance of a multi-signature address; a plain output at a multi-signature address makes the balance raise TypeError. The balance is available for every history whose outputs have addresses and, at a multi-signature address, name its owners. |
| C64 | Atomic swap secrets | Swap | inversion of redeem and refund (Spec/Swap) | Props/Swap | proved. Proved for every contract, secret and wallet. |
| C65 | Atomic swap redeem and refund guards | Swap | inversion of redeem and refund (Spec/Swap) | Props/Swap | partial. Amounts below 10^28 smallest units. Redeem and refund guards, amounts and addressees proved; a wallet that holds both keys signs a refund with the receiver's key (C65_refund_signed_false), proved otherwise. |
| C66 | 3Bot network addresses are decodable and normalised | ThreeBot, Regex, Transactions | decoders; derivative-free matching against the language of the expression (Spec/Regex) | Props/Numeral, Props/ThreeBot | proved. proved for every IP library that parses what it prints (LawfulIp) |
| C67 | Only well-formed 3Bot names are accepted | ThreeBot, Regex, Transactions | decoders; derivative-free matching against the language of the expression (Spec/Regex) | Props/ThreeBot | partial. False: a trailing newline is accepted (C67 false theorem); proved for the rest. |
| C68 | ERC20 address validity check agrees with the constructor | ThreeBot, Regex, Transactions | decoders; derivative-free matching against the language of the expression (Spec/Regex) | Props/Numeral, Props/ThreeBot | partial. False: the two checks disagree on underscores, signs, blanks and doubled prefixes; proved for hex texts, bytes and address objects (C68_values). |
| C69 | Duration text round-trips | Duration | uniqueness of the parse of unit texts; div/mod arithmetic (Spec/Duration) | Props/Duration | partial. Proved for every duration from 0 up to 10^9 days, with the exact set of accepted texts and their meaning; texts with a decimal point rest on float and timedelta arithmetic, which is a parameter here and modelled in C131. False: negative durations are printed as other ones (C69_negative_false), durations from 10^9 days on are printed as unreadable texts (C69_huge_false). |
| C70 | A failed signing attempt leaves no trace | Fulfillments | state after an exception | Props/Fulfillments | partial. False: a refused atomic-swap attempt stores the key/secret; proved for the others. |
| C71 | Copying inputs keeps unknown parents unknown | IO, TxJson | JSON round trip | Props/Signing | partial. False of the code: an unknown parent is replaced by a made-up nil output; parent ids and fulfillments proved kept. |
| C72 | A transaction can be serialised for posting | TxJson, Json | structure of the JSON form | Props/TxBuild | partial. False of the code for every transaction: json() holds a TransactionVersion object json.dumps refuses; the data part is proved dumpable. |
| C73 | A name transfer is signed by both parties | Transactions | commutation of signing steps | Props/Signing | partial. False of the code when both parties use the same key; proved for different keys, whichever signs first. |
| C74 | Transactions can be compared | Transactions, Client | hash and equality as functions of the id | Props/Preimage | partial. False: NameError for transactions without id; transactions read from JSON without an id all compare equal (C74_read_false). Proved for transactions with ids, also those read with one, up to collisions of Python's str hash. |
| C75 | Signed bytes determine the contents (all versions) | TxJson | discrimination on version | Props/Preimage | proved. proved for all nine versions, also across versions |
| C76 | 3Bot values can be copied | ThreeBot | case analysis on the address kind | Props/ThreeBot | partial. False for IP addresses and bot names (AttributeError); proved for host names. |
| C77 | Draining succeeds whenever there is enough | Balance | induction on the drain loop | Props/Drain | partial. False: an output below the fee alone in the last transaction makes the drain raise NameError; proved when every output is worth the fee. |
| C78 | Balances that know common multi-signature wallets can be combined | Balance | merge of maps | Props/Merge | partial. False: AttributeError whenever a multi-signature wallet is known to both, and always for the balance of a multi-signature wallet; proved for disjoint multi-signature wallets. |
| C79 | 3Bot and ERC20 registrations do what was asked | WalletOps, TxBuild | inversion of the operations; signing loop invariant | Props/Bots, Props/Huge | partial. record_new, record_update, name_transfer, ERC20 address_register. False beyond 28 decimal digits (C79_huge_false): proved when the amounts of the wallet add up to less than 10^28 smallest units. |
| C80 | 3Bot updates and transfers are refused when they cannot succeed | WalletOps, TxBuild | inversion of the operations; signing loop invariant | Props/Bots | partial. Active-bot guards proved; False part: empty lists of names/addresses pass the 'at least one must be given' checks. |
| C81 | Minting does what was asked | WalletOps, TxBuild | inversion of the operations; signing loop invariant | Props/Mint | proved. coins_new and definition_set: everything posted or returned is exactly what was asked. |
| C82 | Signing a transaction made elsewhere | WalletOps, TxBuild | inversion of the operations; signing loop invariant | Props/SignForeign | partial. Proved for every transaction that is not a legacy (version 0) one and whose name-transfer parties differ: nothing but genuine signatures of own keys is added, the flags are true, at most one submission and only if asked; submitted transactions are completely signed if the signatures they had were genuine; own inputs are signed. Findings: foreign signatures are not verified before submitting; an already complete transaction is never submitted; a transaction without coin inputs set raises TypeError. Legacy transactions are signed for other bytes than those to be signed (C82_legacy_false). |
| C83 | A payment from own addresses is submitted | Wallet, WalletOps | outcomes with the list of posted transactions, including those of raising runs | Props/Deliver, Props/Submit | proved. coins_send (including to an ERC20 address), the transaction builder, the four 3Bot and ERC20 registration operations, whenever all that may be spent belongs to single-signature addresses of the wallet. Updates and name transfers moreover need the keys of the 3Bots in the wallet; for a transfer between two 3Bots with the same key see C80. |
| C84 | Consecutive payments do not double spend | Wallet, WalletOps | outcomes with the list of posted transactions, including those of raising runs | Props/Deliver | partial. False in general: the wallet computes a fresh balance from the explorers for each operation and remembers nothing (C84_double_spend_false). Proved: every paying operation spends only outputs the balance offered when it began, hence no double spend once the balance no longer offers what the earlier transaction spends. |
| C85 | An exception means nothing was submitted | Wallet, WalletOps | outcomes with the list of posted transactions, including those of raising runs | Props/Confirmed, Props/Deliver | partial. False: the answer to the submission may get lost, and even with a perfect network a payment to the address of an own multi-signature wallet (given as address) is submitted and then raises TypeError. Proved for all submitting operations: an exception means nothing was submitted, unless one of the named troubles came up afterwards. |
| C86 | Returned outputs carry their ids | Wallet, WalletOps | outcomes with the list of posted transactions, including those of raising runs | Props/Deliver, Props/Swap2 | proved. For coins_send, the builder, coins_new, the 3Bot operations, address_register, transaction_sign (all versions) and the atomic swap operations. The network's way to compute ids is specified in Spec.NetworkOutputId. |
| C87 | Amounts mean what the documentation says | Wallet, WalletOps | outcomes with the list of posted transactions, including those of raising runs | Props/Amount | partial. Finding: whole numbers (int, digits-only text), documented as smallest units, are taken as whole TFT. Decimal texts mean what they say (below the 28 digit bound). |
| C88 | The returned contract is the submitted one | Swap | inversion of initiate, participate, verify, redeem, refund; liveness by construction | Props/Swap2 | partial. The returned contract's fields and the single submission are proved (C88_returned, C88_submits). The id clause is false while signatures of a multisig source are missing: the id is computed before the missing signatures are added (C88_id_false). |
| C89 | verify accepts only matching contracts | Swap | inversion of initiate, participate, verify, redeem, refund; liveness by construction | Props/Swap2 | partial. Every check is proved for fetched and given contracts, and acceptance is characterised exactly for fetched ones (C89_accepts). False of the code: a given contract that is already spent passes (C89_spent_false), and a minimum refund time given as a duration in seconds is compared the wrong way round (C89_time_false, C89_seconds_false). |
| C90 | Contracts can be redeemed as documented | Swap | inversion of initiate, participate, verify, redeem, refund; liveness by construction | Props/Redeem | partial. Redeeming and refunding are proved to submit whenever the contract is reported unspent, the wallet holds the receiver (sender), the secret opens it and the fields fit the wire format. False: a contract for the free-for-all wallet (participator None) is created but can never be redeemed (C90_free_for_all_stuck, C90_free_for_all_false), and the documented multi-signature participators are refused (C90_multisig_participator_false). |
| C91 | The secret of a submitted contract is returned | Swap | inversion of initiate, participate, verify, redeem, refund; liveness by construction | Props/Swap2 | partial. Proved when the chain time is available after submission; false otherwise: the contract is on chain, an exception is raised and the secret is lost (C91_secret_false). |
| C92 | No key of the seed is skipped | Keys | invariant and counterexample history | Props/Keys | partial. False: a scan drops the last pooled key of each round (slice off by one), which is then never found again whatever happens (C92_skipped_false, C92_skipped_forever). Proved: no key is skipped when used keys have no gaps. |
| C93 | Failover to a working explorer | Explorer | induction on the list of addresses | Props/Explorer | partial. False: the first HTTP error stops the search, so a request fails although another explorer would answer (C93_failover_false). Proved when no explorer answers with an HTTP error (C93_failover_partial). |
| C94 | Transactions carry the explorer's annotations | Client | inversion of answer processing | Props/Answers, Props/Client | partial. Proved for inputs, outputs and confirmation; false for the output of an ERC20 withdrawal, whose id is lost (C94_withdrawal_false). Every entry of the documented form is accepted (C94_accepted). |
| C95 | Answers fit the question | Client | inversion of answer processing | Props/Answers, Props/ChainInfo, Props/Lookup | partial. Proved for transactions and blocks asked for by id; false for blocks by height, for 3Bot records and for ERC20 registrations, which are not checked. Blocks and records are returned as the answer describes them; an unknown 3Bot raises ThreeBotNotFound. |
| C96 | The wallet's balance is complete | Client, Balance | composition of answers, balances and wallets (Spec/WalletBalance) | Props/Answers, Props/WalletBalance | partial. Proved for coherent histories; false for a wallet two of whose addresses own a multi-signature address together: AttributeError (C96_two_owners_false). The balance is available otherwise (C96_available_partial), except while the chain has only its first block: ValueError (C96_first_block_false). |
| C97 | Block rewards are part of the balance | Client, Balance | composition of answers, balances and wallets (Spec/WalletBalance) | Props/WalletBalance | partial. False: the blocks in an explorer's answer are ignored, so block rewards are never part of a balance (C97_rewards_false, for every answer). |
| C98 | The wallet's transactions are complete | Client, Balance | composition of answers, balances and wallets (Spec/WalletBalance) | Props/WalletBalance | partial. Proved whenever it returns; false for a wallet with an unused address, for which it always raises ExplorerNoContent (C98_unused_false). |
| C99 | Fitting transactions can be encoded, identified and signed | Transactions, Encoders | totality of every encoder on fitting values (Spec/Encodable, Lemmas/Total) | Props/Encodable | proved. Under bounds on list lengths (2^20; 15 for 3Bot lists). Legacy (version 0) transactions: C99_legacy_*; one that spends a multi-signature output does not fit (AttributeError: C99_legacy_multisig_unfit). |
| C100 | Affordable payments go through | Wallet, WalletOps, Swap, Balance | totality of funding, signing and submission on legal wallets (Spec/Live, Spec/Redeem) | Props/Live, Props/Observed, Props/Redeem | partial. Proved for personal sources, for one multi-signature wallet of any size as the source, and for wallets offering at most 99 outputs altogether (C54 shows that more multi-signature outputs can be missed), when no multi-signature condition names an owner of the wallet twice; false otherwise (C100_owner_twice_false). A source given as a list of one text is never usable: C100_one_text_false. |
| C101 | Time locks given as text mean what is documented | Duration, Conditions | same, composed with the lock check | Props/Duration | partial. Proved for durations and for every documented date form (also am/pm times; what is not a time is refused), relative to the calendar (time.strptime and mktime are a parameter; the theorem says which text is read with which format; C130 makes it concrete, C131 durations with decimal points). False: a time of the day alone, documented as '12:00:10', is refused (C101_clock_false); dates before 5 November 1985 are taken as block heights (C101_early_date_false). |
| C102 | Chain facts are told as the explorers know them | Client | composition of the answer readers with the printers of addresses, hashes and conditions (Spec/ChainInfo) | Props/ChainInfo | proved. For explorers that answer in the documented form (Spec/ChainInfo). The last block: its id is not all zeros. |
| C103 | A wallet tells exactly its own ERC20 registrations | Client, Overview, Keys | induction over the wallet's addresses; reachable key states from C59 | Props/ChainInfo | proved. In every state reached by key requests and scans, for truthful explorers. The class AddressNotInWallet is modelled as its base class Exception. |
| C104 | A returned result means a confirmed submission | Wallet, WalletOps, Swap | outcomes with the list of posted transactions, including those of raising runs | Props/Confirmed | proved. All submitting operations: payments, builder, minting, 3Bot and ERC20 operations, transaction_sign (object and JSON) and the atomic swap operations. |
| C105 | Submitting a transaction reaches the network | Connect, Explorer, TxJson | induction over the explorers; C72 and C104 for what goes wrong | Props/Connect | partial. False: no transaction object is ever sent, as the version in the dict to be dumped is no JSON value (see C72): transaction_put raises TypeError before anything is posted, so with the explorer client of the library no wallet operation submits anything. Proved for transactions given as their JSON. All other properties about submissions are therefore stated for any way of submitting (the methods explorer_get and explorer_post are made to be overridden). |
| C106 | A client is for the network it was asked for | Connect | case analysis on names and arguments | Props/Connect | partial. False: a name that is no network (such as a misspelling) is not refused: the client is then for the standard network, or has no network at all. Proved for names of networks, network types and networks told by explorers; fees and explorers of each network. |
| C107 | A balance counts exactly what was reported unspent | Balance | induction over the history (from its end), one invariant for the four dictionaries | Props/Report | partial. Exact for personal balances and for multi-signature wallets whose outputs are without time lock. False otherwise: when the first reported output of a multi-signature wallet is time-locked, the report raises AttributeError and the output is not counted. |
| C108 | A printed balance tells the exact amounts | Report | exact sums (C15) and the text of amounts (C18) | Props/Report | proved. For amounts that together stay below 10^28 smallest units. The text of the time is a parameter. |
| C109 | Affordable 3Bot operations and registrations go through | WalletOps | funding (Live) plus the extra signatures of the parties; encodability of what is to be signed (C99) | Props/LiveBots | partial. For outputs that add up to less than 10^28 smallest units, a source of personal addresses, of one multi-signature wallet, or of at most 99 outputs, addresses given as text or number (address objects cannot be copied, C76), outputs that name no owner twice (see C100), and name transfers between bots with different addresses (C73 for the other case). C109_same_key_false: a transfer between bots with the same key is never submitted. |
| C110 | Minting goes through | WalletOps | the same for the fulfillment of the mint condition | Props/LiveBots | partial. False if the mint condition names an owner twice whose key the wallet has: then minting raises ValueError (C110_owner_twice_false). Proved for all other mint conditions. |
| C111 | Transactions have the network's wire format | Transactions, IO, Conditions, Fulfillments, Encoders | the layout is written down as total functions in Spec/Wire, without the encoders; each encoder writes its part of it (a Hoare-style calculus over what is appended) | Props/Wire | proved. C111_wire_format adds, with C99, that the bytes exist. C111_overlong_false: outside the quantifier, a 3Bot registration with 17 addresses is not refused but encoded with the counts "1 address, 1 name". |
| C112 | Legacy transactions are read as they are | TxJson | relation between JSON and contents in Spec/Legacy, reading by cases, then C111 | Props/Legacy | proved. C112_legacy_bytes also asks that the lists fit their lengths. |
| C113 | A transaction asks exactly for the signatures it lacks | Transactions, IO, Fulfillments | owners of conditions and keys of fulfillments in Spec/Asked; induction on the inputs; one fulfilled request removes exactly its entry | Props/Asked | partial. C113_requests: exactly the owners whose keys are not entered are asked, in order, for every askable transaction (fulfillments of the kind their conditions need). C113_answered_partial: an answered request disappears and the others stay, also for atomic swaps neither party of which has signed; name transfers between the same keys are left out (C73). C113_complete_partial: when nothing is asked all is signed. C113_asks_false: a fulfilled transaction still asks the remaining owners of a multi-signature wallet, the owner of a nil output is asked for ever, and after an attempt with a malformed signature the owner is not asked again although nothing is signed (C70). C113_swap_false: once one party of an atomic swap has signed, the other one is still asked, and its answer replaces the first signature. |
| C114 | Transactions are separate objects | Sharing: fulfillments with an identity, in a store | programs are lists of acts; Spec/Sharing runs them on separate values; invariant: references are distinct and every object shows its value | Props/Sharing | partial. C114_separate_partial: for every program that never assigns the inputs of one transaction to another one, each transaction is what the acts on it alone make of it. With such an assignment the property fails: C114_follow shows that from then on both transactions show the same fulfillments wherever signatures arrive, and C114_shared_false exhibits a payment that counts as fulfilled although only another transaction, with other bytes to sign, was signed. Blockstake inputs, conditions and amounts keep being values here. |
| C115 | A transaction shows what was assigned to it | Fields: all setters and getters, one table each | Spec/Fields gives the meaning of an argument per property; one-step frame lemma by cases; induction on the history | Props/Fields | partial. C115_fields_partial, C115_accepts and C115_refused hold for all classes, properties and histories, except that a refused coin_outputs assignment of an ordinary payment or coin creation empties the list first (C115_refused_false), and that numbers that are not ints are left out for the number of months (its comparisons accept any number). C115_fees: an explicit zero is a fee, None is not. C115_created: the output of an ERC20 coin creation. |
| C116 | Amounts in payments do not change afterwards | Amounts: a store of Currency objects, variables and outputs refer to it | Spec/Amounts runs the same program with numbers; simulation by induction on the program | Props/Amounts | partial. An output keeps the Currency object it is given, and += changes it in place: C116_inplace_false (10 become 15 after the output was added). C116_amounts_partial: programs that do not change outputs in place nor a variable that was given to an output. C116_fees: miner fees are copies, so they and the variables are right in every program that does not change outputs in place. |
| C117 | Atomic swap contracts compare and read as what they are | Contract: __eq__, __repr__ and the timestamp of the constructor; texts of dates by an uninterpreted clock | equality through the JSON round trip of conditions (C28), durations through C69, agreement with mayRefund (Swap) | Props/Contract | proved. C117_equal, C117_json (the comparison is that of the JSON), C117_text (the whole text), C117_refund (agreement with refund), C117_now. Refund times more than 10^9 days ahead are left out (their duration is not readable: C69_huge_false). |
| C118 | Values compare as what they are | Compare: the six operators of Currency, ==, != and hash of BinaryData/Hash and UnlockHash; Python's hash of texts is a parameter | decimal order through lt_amount/eqv_amount, texts through the encoder round trips (C11, C12), addresses through C22 | Props/Compare | partial. C118_amounts, C118_whole_number, C118_amount_text, C118_any_answer, C118_total_order, C118_data, C118_data_kinds, C118_data_keys, C118_identifier_keys, C118_address, C118_address_keys hold in full. The last clause is false of the code: comparing with a negative number raises a NameError and with None a TypeError (C118_amounts_false), a text that is no address raises (C118_address_false); and a text equal to an identifier need not have its hash (C118_text_key_false). |
| C119 | Changing one balance leaves the others alone | BalanceObjects: balances and block identifiers as objects in stores, with references where Python keeps them; every operation may stop half way with an exception | invariant over all programs (own identifiers, wallets filed under their addresses), frame theorem per operation, and agreement with the value model of the other properties (C119_output, C119_sum, C119_chain) | Props/BalanceObjects | partial. C119_output, C119_sum, C119_chain (the balance itself changes as in the value model, so that C56-C63 and C96 hold of objects), C119_apart, C119_new, C119_personal (outputs, addresses and chain context of a personal balance are never touched from elsewhere), C119_own_id, and C119_alone_partial for programs that merge only balances without multi-signature wallets. False in general: merged multi-signature wallets are shared, not copied (C119_merged_false), and a block identifier read earlier changes with the balance (C119_block_id_false; C119_block_id_partial says when it does not). |
| C120 | What a wallet submits is valid on the chain | Chain (spec): the chain as the list of its transactions, with truthful explorers as a relation between it and the answers of the client | composition: a truthful history gives exactly the unspent outputs (C58, C59, C96), funding draws on distinct unlocked ones (C52, C53), the built transaction balances (C54, C84, C91), and what is submitted is fully signed (C88) | Props/Chain, Props/ChainSwap | partial. C120_valid_partial holds for wallets whose addresses took part in no ERC20 withdrawal and whose shared addresses took part in no mint definition. Both restrictions are bugs of the code: outputs of a withdrawal are described without ids and are then spent with an empty id (C120_withdrawal_false), and once a shared address was made the mint condition its balance forgets what was spent since, so that an output spent already is spent again (C120_mint_false). For atomic swaps: C120_contract_partial (new contracts, with the same restrictions), C120_redeem_partial and C120_refund_partial (claims). The restrictions on claims are bugs too: a refund of a contract between two addresses of the wallet is signed by the wrong one (C120_refund_false), a contract worth exactly the miner fee is claimed with an output worth nothing (C120_worthless_false), and the empty secret is accepted (C120_empty_secret_false). |
| C121 | Coins are neither made nor lost, nor spent twice | Circulation (spec): what circulates, what it means that the network takes a transaction, and the steps of wallets on a growing chain | invariant: C120 gives that each submitted transaction spends different unspent outputs worth what it pays; taking it keeps the chain lawful and changes what circulates by fee and charges; induction over the steps | Props/Circulation | partial. The wallets are as in C120 (no ERC20 withdrawal or mint definition in their histories, because of the bugs shown by C120_withdrawal_false and C120_mint_false), claims are of contracts worth more than the miner fee whose parties are not both addresses of the wallet (C120_worthless_false, C120_refund_false) with secrets of 32 bytes (C120_empty_secret_false). Each wallet reads its balance from the chain as it is when it acts: with a balance read earlier it spends outputs again (C84_double_spend_false), which the network rejects. C121_untouched_partial is for personal addresses; shared ones are for those who sign (C83, C85). |
| C122 | JSON texts are read as what they stand for | JsonText (model): json_dumps with the options used, json_loads with the scanner of Python, UTF-8, readline | JsonText (spec): the grammar of JSON as an inductive relation between values and texts | Props/JsonText | partial. The reading of answers holds for answers on one line (C122_answer_partial): a client reads the first line of the body only, so an answer laid out over several lines is refused, even one written by json_dumps itself (C122_answer_false). Numbers with a fraction or exponent and lone surrogates are outside the values of the model; limits of Python on nesting and on the number of digits are not modelled. |
| C123 | A wallet can be recovered from its words | Words (model): how a wallet gets its seed; to_mnemonic and to_entropy of the package mnemonic as bit lists | Words (spec): the words as the digits to the base 2048 of the seed and its checksum | Props/Words | partial. Not for wallets made from bytes of another number than 16, 20, 24, 28 or 32: they work but have no words (C123_raw_false). The package mnemonic is a dependency; its model follows the standard and is checked on standard vectors. The word list is any list of 2048 different words without spaces, sha256 any function with 32 bytes of output. |
| C124 | An error says what it is about | Errors (model): the operations with what their exceptions carry; the rest of the model keeps only the class | Errors (spec): for each exception what it carries and why it may be raised | Props/Errors | partial. False of the code: a contract in an exception of redeem or refund says it is spent although it is not (C124_unspent_false); for lock times beyond what the platform can print as a date, refund raises OverflowError instead (C124_undated_false); an own address in capital letters is refused as not owned (C124_spelling_false). What is asked in the course of an operation (explorers, key scan) is assumed not to raise the classes in question itself. Messages are not modelled, except that printing a date may raise. ExplorerInvalidResponse is not covered. |
| C125 | A text means exactly the amount it says | Text, Primitive (model): Decimal(text), the value setter and from_json; CurrencyText (spec): the grammar of numbers, blanks and unit, and the number a text stands for | the parser is shown to decide the grammar (iff), which is therefore unambiguous; capital letters commute with every step | Props/CurrencyText | partial. Texts given by a user: proved in full (which are accepted, what they mean, why the others are refused). JSON: false beyond 28 digits, where decimals are accepted and lost (C125_json_false); proved below 10^28. The two refusals meant by the code (CurrencyNegativeValue, CurrencyPrecisionOverflow) are raised as NameError, because the module does not import errors. Letters other than ASCII: str.upper turns a few of them into ASCII letters, but none that may occur in an accepted text. The limits on exponents of the decimal module are not modelled. |
| C126 | A shared payment is submitted once enough owners have signed | Wallet, WalletOps, TxJson, Fulfillments, IO (model): transaction_sign on the JSON of a transaction; Circulate (spec): the owners, who takes part, what it means that all of them have signed, and the transaction going from hand to hand | invariant of the circulation, by induction on the hands: the JSON of what a wallet returns reads back as the same transaction with the same signatures in the same order; adding the signatures of one more wallet; comparison of the number of signatures with the number required | Props/Circulate | partial. Payments from multi-signature wallets: proved for any number of owners, inputs and hands, when no owner has the same key in two of the wallets (an owner who has signed is not asked again, see C113, but which of two wallets then signs is left out here) and the owners are different personal addresses. Payments from personal outputs of several owners: false, every wallet knows its own outputs only and takes the inputs of the others as not fulfilled, so no wallet ever submits the completely signed payment (C126_personal_false, C126_unknown). |
| C127 | JSON is read as exactly what it says | Conditions, Crypto, Fulfillments, IO, TxJson (model): the from_json functions; Reading (spec): relations between a JSON value and what it says, made of the grammar of the texts and of the fields of the objects, without any reading function | equivalence, function by function, of a successful run with the relation; induction on the texts and on the lists | Props/Base64, Props/Reading, Props/ReadingTx | proved. Amounts of money are texts with a grammar of their own, in C125; here they are what those texts are read as. The module ipaddress is a parameter. Floats in JSON are not modelled. What is refused is refused with some exception: which one is C124. |
| C128 | A network address is a host name or an IP address | ThreeBot, Regex (model): the setter of NetworkAddress and its pattern (the module ipaddress is a parameter); HostName (spec): the grammar of host names in words and counts of characters, without a regular expression | language of the regular expression (Lemmas.Regex), compared with the grammar part by part; big-endian numbers are injective for a given length | Props/HostName | partial. Complete characterisation of the texts and numbers accepted and of the address they give. False for one kind of text: the pattern ends in $, which in Python also matches before a final newline, so a host name followed by a newline is accepted with the newline (C128_newline_false). |
| C129 | IP addresses are read and written as published | Ip (model): the text parser and printer of ipaddress in CPython 3.11, function by function, compared with the interpreter by tools/fuzz.py; IpText (spec): the grammar of IPv4 and IPv6 texts and the canonical form of RFC 5952 | split and join are inverse; the parts around the double colon; invariant of the loop that looks for the longest run of zeros; the assumption LawfulIp used by C66, C127, C128 and the theorems about bots is a theorem about this model (C129_lawful) | Props/Ip | partial. The module is that of CPython 3.11: before 3.9.5 leading zeros were accepted in IPv4 addresses, before 3.9 scope ids were refused. Partial only because of the newline after a host name (C128_newline_false), which C129_network_address_partial states. |
| C130 | Dates mean moments of the calendar | Calendar (model): time.strptime with the regular expressions of CPython 3.11 and backtracking over them, the day count of datetime, gmtime and strftime, getEpochDeltaTime; compared with the interpreter by tools/fuzz.py; the time zone is a parameter. Calendar (spec): days counted by adding up the lengths of years and months; what each notation means | closed form of the day count by induction on the year; a directive takes all the digits of its place or nothing; the search for the year and month of a day is inverse to the count; order of moments | Props/Calendar | proved. The C locale. What mktime does with a local time that is skipped or shown twice is a parameter (stamp), of which C130_shown assumes only that the clock shows the text at the timestamp it gives (LawfulZone); C130_repeated_hour_false says why the exception in the statement is needed. Numbers with a point or beyond 2^53 in front of a unit go through floating point arithmetic, which is a parameter here and modelled in C131. The RuntimeError of an unknown unit is not told from Exception. |
| C131 | Numbers with a decimal point in durations | Float (model): double precision as rational numbers with 53 binary digits and ties to even; float() of a text; the accumulation of timedelta in CPython 3.11 and total_seconds; compared with the interpreter by tools/fuzz.py. Float (spec): a number with its point; the sum of the units | error bounds: half a unit in the last place for each operation, added up over the units by induction; whole numbers below 2^53 are exact | Props/Float | proved. Exponents of floats are not bounded in the model; what would overflow is too large for a timedelta. Findings: "0.9999999s" is read as one second (C131_dropped_false), a millisecond less than 10^9 days as 10^9 days (C131_huge_false), and "-4.1m" is 245 seconds ago while "4.1m" is 246 seconds (C131_ago_false). |
| C132 | Locks given as timedelta or datetime objects | Moment (model): timedelta.total_seconds, datetime.timestamp and local_to_seconds of CPython 3.11, OutputLock on such objects; compared with the interpreter by tools/fuzz.py. Moment (spec): a clock with one change, the first and last time it shows a moment | linear arithmetic over the two sides of the change; error bounds of the two roundings | Props/Moment | proved. The end of the range of years is not modelled. Finding: a microsecond before the year 10000 is rounded up to it (C132_far_false). |
| C133 | Requests reach the explorer they are meant for | Url (model): urlparse, urlunparse and Request of CPython 3.11.10, _updateUrlParams and _http_request up to urlopen; compared with the interpreter by tools/fuzz.py. Url (spec): addresses and endpoints in their parts | the parts of a good URL come back from each step; the client with any two worlds that agree at good endpoints | Props/Url | proved. Parameters: what becomes of a query in an address (parse_qs and urlencode; no endpoint has one), the NFKC check of hosts with other than ASCII letters, unquote of hosts with a percent sign. Not modelled: proxies, redirections. 3Bot identifiers given as text are passed on as they are, with the blanks that keys may contain. |
| C134 | A wallet spends only what it has the keys for | Open (spec): the keys an operation may use, which conditions they open, the keys of the signatures of a fulfillment. Circulation (spec): runs carry the wallets that act | a wallet that signs differently with keys it does not have does the same in every operation, so each signature is of a key it has; what such signatures unlock the wallet can open; induction over the run | Props/Open | proved. Spending is possible in general only if the wallet has the keys (that it succeeds then is C100-C102). That a time lock has passed is not part of having the keys (see C120). transaction_sign signs what others made, with keys of the wallet only (C134_private); the inputs others signed stay as they are. |
| C135 | What is paid arrives, and balances show what the chain holds | Arrive (spec): what addresses own on a chain, what a balance shows, what a transaction pays to them | the balance lists the unspent outputs at the addresses once each (C120), the network takes away what is spent and adds the outputs (C121), C56 says what the outputs are; both wallets are read before and after | Props/Arrive | partial. Partial because of the assumptions of Informed (no ERC20 withdrawals among the answers and no mint definitions, see C120), under which the explorers and the balance are known to agree with the chain. Shares of multi-signature wallets are not part of what a wallet itself is shown; they are the subject of C135_shared_partial. |
| C136 | What a wallet owns it can spend | Arrive, Chain, Live (specs): what addresses own on a chain, what the network asks of a transaction, when conditions are ordinary ones | what the chain holds at the addresses the balance offers (C135), the balance is well-filed and sane since the chain is lawful, so C100 applies; what is submitted is valid by C120, pays as asked by C56, and can be taken | Props/Spendable, Props/SpendableOps | partial. Partial because of the assumptions of Informed (see C120, C135), and because unspent outputs are assumed to have ordinary conditions (no owner twice, no time lock of a contract, C100_owner_twice_false). For the multi-signature address it is assumed that the conditions explorers describe have at most 2^20 owners with well-formed addresses. 3Bot operations and the registration of an address are covered with keys the wallet has already; that the new key made without an index is one whose address can be registered is C109. |
| C137 | What is put into a contract can be taken out, once | Release, Chain, Circulation, Swap, Redeem (specs): explorers that list a contract, transactions that release one, chains that take transactions | a listed unspent output is reported (converse of C61), so C90 gives the submitted transaction, C65 what it pays, C120 its validity, and a chain that takes it exists; a spent contract is not reported as unspent, since truthful explorers list the spending transaction | Props/Release | partial. Partial because of the assumptions: secrets have 32 bytes, contracts are worth more than the miner fee (C120_empty_secret_false, C120_worthless_false), and the wallet that refunds lacks the key of the receiver (C120_refund_false). |
| C138 | A swap completes or is undone, and is atomic | Exchange, Release, Swap, Chain, Circulation (specs): contracts a chain holds as asked for, wallets that can claim, contracts that can be claimed, what a claim reveals | a returned contract is the first output of the posted transaction under the id the network computes (C88, C65); a chain that takes it holds it unspent (C120, C121); C137 applies to whoever claims it from any later chain, and to the receiver of the other contract with the secret the claim shows (C65); with C100 and C136 the wallet that owns the amount gets that far: creation, posting, acceptance and claim composed | Props/Exchange, Props/Opening | partial. Partial because of the assumptions of C120 and C137: truthful explorers, no mint or withdrawal transactions, secrets of 32 bytes, contracts whose parties are personal addresses, worth more than the fee, and a refunding wallet without the key of the receiver. |

## Findings

Every row above whose result says "False" is a difference between the documentation (or the plain reading of the API) and the code, proved in
Lean with a concrete witness. Those that can cost a user money:

* C84 – two payments in a row spend the same outputs: the wallet forgets what it spent until the explorer reports it.
* C87 – `coins_send(to, 1000000000)` sends a thousand million TFT, not one: whole numbers are taken as TFT.
* C15/C51 – amounts are rounded to 28 digits when added or subtracted.
* C90 – a contract for "anyone" can be opened but never redeemed; C91 – the secret of a submitted contract is lost when the chain time cannot be
  fetched right after; C89 – `verify` accepts a spent contract and compares a minimum refund time given in seconds the wrong way round;
  C88 – the id returned for a contract funded from a multi-signature wallet is wrong while signatures are missing;
  C65 – a refund may be signed with the receiver's key and be invalid.
* C92 – key scans skip a key for good; coins at its address are not found after restoring the wallet from the seed.
* C97, C61, C63 – block rewards and outputs of ERC20 withdrawals are missing from balances or stay after being spent.
* C96, C98, C78 – `balance` and `transactions` raise for wallets with two owners of a multi-signature address, or with an unused address.
* C100 – a multi-signature wallet that names an owner twice cannot be spent by that owner's wallet; `source=[address]` with the address as a text never
  works.
* C101 – the documented lock '12:00:10' is refused; a date before November 1985 locks coins for hundreds of millions of blocks.
* C72 – `transaction_put` fails for every transaction as written, because `json()` holds an object `json.dumps` refuses.

Other observations made while modelling (not all of them are theorems):

* a contract funded from a multi-signature source gets the wallet's primary address as sender; a refund given as a multi-signature address makes
  `initiate` raise; `participate` with `secret_hash=None` or `''` makes a contract with an empty secret hash;
* a name transfer between two bots with the same key can never be submitted (C73, C80);
* a single-signature fulfillment that has the right key but no signature makes no signing request;
* `blockstake_outputid_new` checks its index against the coin outputs (C41);
* `record_get('')` asks for "/explorer/3bot/"; `record_get("1")` raises `ValueError`;
* `HttpClient` raises `TypeError` for 2xx codes other than 200; an address that is no URL raises `ValueError` without trying the others;
* a confirmed entry without height gives `TypeError`, a chain info without block id `KeyError`;
* merging a balance with height 0 but a time raises `ValueError`;
* a mint nonce read from JSON may have any length; `AtomicSwapSecret` accepts the empty secret; `key_start_index` is ignored by the wallet.

## Trusted base

* Lean's kernel (every module is replayed by `vcheck`).
* The axioms `propext`, `Classical.choice` and `Quot.sound`; `AXIOMS.md` lists them per theorem. No axiom is added, nothing is left open, and no compiled
  evaluation is used: `decide +kernel` is evaluated by the kernel.
* The reading of the Python source recorded in the comments of the model: that each definition does what the cited lines do, including the parts of
  Python's standard library in `Model/Py`, `Model/Text`, `Model/Decimal`, `Model/Json` and `Model/Regex`.
* The parameters above and the assumptions named in the theorems.
