## Findings

Every row above whose result says "False" is a difference between the documentation (or the plain reading of the API) and the code, proved in
Lean with a concrete witness. Those that can cost a user money:

* C84 – two payments in a row spend the same outputs: the wallet forgets what it spent until the explorer reports it.
* C87 – `coins_send(to, 1000000000)` sends a thousand million TFT, not one: whole numbers are taken as TFT.
* C15/C51 – amounts are rounded to 28 digits when added or subtracted.
* C90 – a contract for "anyone" can be opened but never redeemed; C91 – the secret of a submitted contract is lost when the chain time cannot be
  fetched right after; C89 – `verify` accepts a spent contract and compares a minimum refund time given in seconds the wrong way round;
  C88 – the id returned for a contract funded from a multi-signature wallet is wrong while signatures are missing;
  C65 – a refund may be signed with the receiver's key and be invalid.
* C92 – key scans skip a key for good; coins at its address are not found after restoring the wallet from the seed.
* C97, C61, C63 – block rewards and outputs of ERC20 withdrawals are missing from balances or stay after being spent.
* C96, C98, C78 – `balance` and `transactions` raise for wallets with two owners of a multi-signature address, or with an unused address.
* C100 – a multi-signature wallet that names an owner twice cannot be spent by that owner's wallet; `source=[address]` with the address as a text never
  works.
* C101 – the documented lock '12:00:10' is refused; a date before November 1985 locks coins for hundreds of millions of blocks.
* C72 – `transaction_put` fails for every transaction as written, because `json()` holds an object `json.dumps` refuses.

Other observations made while modelling (not all of them are theorems):

* a contract funded from a multi-signature source gets the wallet's primary address as sender; a refund given as a multi-signature address makes
  `initiate` raise; `participate` with `secret_hash=None` or `''` makes a contract with an empty secret hash;
* a name transfer between two bots with the same key can never be submitted (C73, C80);
* a single-signature fulfillment that has the right key but no signature makes no signing request;
* `blockstake_outputid_new` checks its index against the coin outputs (C41);
* `record_get('')` asks for "/explorer/3bot/"; `record_get("1")` raises `ValueError`;
* `HttpClient` raises `TypeError` for 2xx codes other than 200; an address that is no URL raises `ValueError` without trying the others;
* a confirmed entry without height gives `TypeError`, a chain info without block id `KeyError`;
* merging a balance with height 0 but a time raises `ValueError`;
* a mint nonce read from JSON may have any length; `AtomicSwapSecret` accepts the empty secret; `key_start_index` is ignored by the wallet.

## Trusted base

* Lean's kernel (every module is replayed by `vcheck`).
* The axioms `propext`, `Classical.choice` and `Quot.sound`; `AXIOMS.md` lists them per theorem. No axiom is added, nothing is left open, and no compiled
  evaluation is used: `decide +kernel` is evaluated by the kernel.
* The reading of the Python source recorded in the comments of the model: that each definition does what the cited lines do, including the parts of
  Python's standard library in `Model/Py`, `Model/Text`, `Model/Decimal`, `Model/Json` and `Model/Regex`.
* The parameters above and the assumptions named in the theorems.
