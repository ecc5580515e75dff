# Design

A Lean 4 model of GlenDC/tfchain-py (`/repo/tfchain`), read as text at the pinned commit. Nothing is run; the only tie
between code and model is the line citation on every definition, and the examples in `Props/Vectors.lean`: the transactions, conditions, fulfillments, trees and
amounts in the tests of the repository, and transactions of the test network in the explorer answers these tests use, give in the model (with blake2b as
`Model/Hash.lean` defines it) the encodings, signature hashes, output ids, addresses and fees which the tests and the network expect. (This file is written by
`tools/design.py`, `Props/Vectors.lean` by `tools/vectors.py`.)

## Layout

* `lean/Verif/Model/*` – executable model, function by function, exceptions as values (`Except Err α`).
* `lean/Verif/Spec/*` – small independent specifications: decoders of the wire formats, the recursive Merkle root, amounts as numbers
  of smallest units, what a payment, a contract, a history or a fitting transaction is.
* `lean/Verif/Lemmas/*` – proof machinery.
* `lean/Verif/Props/*` – the property theorems `Cnn_...`, with `example`s beside them showing that their hypotheses are met.
* `properties.jsonl` (by `tools/props.py`), `MANIFEST.json` (by `tools/manifest.py`, from the theorem names), `AXIOMS.md` (axioms of every
  property theorem), `seeded/LOG.jsonl` (wrong programs tried against the theorems).

## Modelling conventions

* `bytes`/`bytearray` = `List UInt8`; `str` = `List Char`; `int` = `Int`/`Nat` (Python ints are unbounded).
* A Python exception is a constructor of `Err` naming its class; messages are dropped. A method that changes its object and then raises
  returns the changed value together with the exception.
* Mutable objects become values, a mutating method returns the new value. Sharing of objects between two holders is modelled only in `Model/Sharing.lean` (fulfillments of coin inputs: C114) and `Model/Amounts.lean` (amounts of outputs: C116).
* A wallet operation is an `Outcome`: the result or exception *and* the list of transactions posted before it, so that "nothing was
  submitted" is a statement about runs that raise, too.
* `blake2b-256`, `sha256`, `ed25519`, Python's `str` hash, the `ipaddress` library, the clock, the calendar (`strptime`, `mktime`), `float`
  arithmetic, random numbers and the explorers' answers are parameters. (`Model/Hash.lean` defines blake2b and sha256, `blake2b_digest` and `sha256_digest` show
  that they meet the assumption; the theorems hold for every hash function that does.) The only assumption about a digest is its length (32 bytes), never
  collision freedom: where a user-level claim needs it, the theorem is about the hashed byte strings, or says "no two keys of the seed have
  the same address". About signatures: verifying accepts what signing made, nothing else is assumed. About `ipaddress`: it parses
  what it prints (`LawfulIp`); for CPython 3.11's `ipaddress`, which `Model/Ip.lean` models, this is proved (C129_lawful).
  About the calendar nothing is assumed in C101; C130 is about `strptime`, `mktime` and `strftime` as `Model/Calendar.lean` models them, in any time zone.
  About `float` nothing is assumed in C69 and C101; C131 is about `float` and `timedelta` as `Model/Float.lean` models them.
* `decimal` is modelled with its 28-digit context and half-even rounding, signs, exponents, infinities and NaN.
* The models of Python's built-ins (`int`, `int(…, 16)`, `Decimal` and its arithmetic, `str.strip`, `upper`, hexadecimal, base64, SHA-256, `json.loads`, `strptime`, `gmtime`, `float` and `timedelta`,
  `timedelta`, the regular expressions) are compared with CPython 3.11 on random inputs, including digits and white space of other scripts, by
  `tools/fuzz.py` (100 000 inputs, no difference). Not modelled: exponents of `Decimal` beyond 10^18, the 4300-digit limit of `int`.
* A Python dict is an association list in insertion order, a set a list without repetition.

## What is modelled

| source | model | not modelled in it |
|---|---|---|
| encoders/sia.py, rivine.py, `__init__.py`, exceptions.py | Encoders, Py | generators given to `add_slice`; objects defining both encodings inconsistently |
| crypto/merkletree.py | Merkle | `sum_` on a file object |
| types/PrimitiveTypes.py, BaseDataType.py | Primitive, Decimal, Text | `Currency` from `float` (refused by the code); locale |
| types/CryptoTypes.py | Crypto | – |
| types/ConditionTypes.py | Conditions, Duration, Moment | `timedelta`/`datetime` locks: Moment (C132); elsewhere they are represented by the integer they give |
| types/FulfillmentTypes.py | Fulfillments | – |
| types/IO.py | IO | – |
| types/ThreeBot.py, ERC20.py | ThreeBot, Regex, Transactions | the test method of the factory |
| types/AtomicSwap.py | Swap, Contract | – |
| types/transactions/*.py | Transactions, TxJson, TxBuild, JsonText | `__str__` |
| TFChainWallet.py | Balance, BalanceObjects, Keys, Words, Wallet, WalletOps, Swap, Report | the random bytes of a new seed (any 32 bytes); the address list is not extended by the key `record_new`/`address_register` may create |
| TFChainClient.py | Client, Explorer | – |
| TFChainExplorerClient.py, internal/HttpClient.py | Explorer, JsonText, Url | sockets, TLS, proxies, redirections, authentication, downloads. Elsewhere the URL is the address followed by the endpoint; which request it becomes is in Url (C133). In the properties about explorer answers these are JSON values; how the bytes of an answer become one is in JsonText (C122) |
| internal/jsutils.py | Duration, Calendar, Float, Json, JsonText (what Python's `json` does with the options used; not floats, lone surrogates, the limits on nesting and on the digits of an int) | time conversions used only for display; random ids |
| errors.py | Py (class names), Errors (what the exceptions carry) | messages (only that printing a date in one may raise); the response in `ExplorerInvalidResponse` |
