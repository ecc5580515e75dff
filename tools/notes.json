{
 "C01": "proved for every integer",
 "C02": "proved for every integer and each width 1,2,3,4,8",
 "C03": "proved for every length",
 "C04": "proved for sia (< 2^64) and rivine (< 2^29) slices",
 "C05": "False of the code for non-ASCII text: the prefix counts code points while the body is UTF-8 (C05_text_slice_false); proved for texts whose UTF-8 size equals their length.",
 "C06": "proved for every encoder state and every list",
 "C07": "proved for every hash function and every leaf list",
 "C08": "proved for every leaf list",
 "C09": "False of the code: root() of an empty tree raises TypeError (C09_empty_root_raises); on non-empty trees it is always defined.",
 "C10": "proved for every history",
 "C11": "proved for every byte string and each of the three encodings",
 "C12": "False for the default Hash (empty value printed as 64 zeros); proved for every 32-byte Hash.",
 "C13": "proved for every history of operations",
 "C14": "False: the setter names undefined classes, so NameError is raised; the refusal itself is proved.",
 "C15": "False beyond 28 significant digits (decimal context); proved within. For amounts of any size the exact outcome is proved: the result is the exact sum, difference or product rounded to 28 digits, half to even (C15_*_rounded). A product is also refused when the stored decimals add up to more than nine, even when the product itself is a whole number of units (C15_mul_spelling_false).",
 "C16": "False of the code: __rsub__ returns c - x.",
 "C17": "False past 28 significant digits; proved within. For any size, what comes back is the amount rounded to 28 digits (C17_currency_json_rounded).",
 "C18": "proved for every good currency",
 "C19": "proved for every amount in the representable range",
 "C20": {
  "status": "proved",
  "note": "Proved for every int and every text (Python's grammar for whole numbers). Outside the property: a Currency is accepted as a block stake too and the result can be neither encoded nor taken as a number (C20_currency_false)."
 },
 "C21": "False: a key with an empty payload is accepted; the rest proved.",
 "C22": "proved for the canonical addresses",
 "C23": "False: the nil type is not checked, type byte is read as decimal, blank hash accepted; the rest proved.",
 "C24": "False of the code (default nil address does not round trip).",
 "C25": "Unlock hash order-independence proved; false when an owner is an empty nil address.",
 "C26": "proved",
 "C27": "proved",
 "C28": "False for default/unset conditions; proved for full conditions.",
 "C29": "False for empty hashes; proved for full conditions.",
 "C30": "proved",
 "C31": "proved for every history",
 "C32": "proved",
 "C33": "False for the None key; proved for present keys.",
 "C34": "False via add_pair/JSON; proved through signature requests.",
 "C35": "False for unsigned fulfillments; proved for signed ones.",
 "C70": "False: a refused atomic-swap attempt stores the key/secret; proved for the others.",
 "C37": "proved for every JSON value",
 "C38": "False for legacy (version 0 style) V1 data, whose preimages contain the signer keys; proved for every other transaction and every signing history.",
 "C42": "proved for every history of data assignments",
 "C43": "False of the code: blockstake inputs are ignored (C43_is_fulfilled_false); exact characterisation of the rest proved.",
 "C44": "proved for every registration in the representable range",
 "C45": "proved for every update/transfer in the representable range",
 "C46": "proved for every months/flags/count combination",
 "C47": "False of the code: the name transfer's setter appends instead of replacing and JSON loading does not apply limits; proved through the setters of registration/update.",
 "C71": "False of the code: an unknown parent is replaced by a made-up nil output; parent ids and fulfillments proved kept.",
 "C72": "False of the code for every transaction: json() holds a TransactionVersion object json.dumps refuses; the data part is proved dumpable.",
 "C73": "False of the code when both parties use the same key; proved for different keys, whichever signs first.",
 "C36": "False for inputs without parent id and amounts of 29 digits (C36_io_json_false); proved for complete inputs and outputs of less than 10^28 units.",
 "C39": "proved for all pairs of version-1 (not legacy) transactions ready for signing, same extra objects",
 "C40": "False: versions 145, 146, 210 read the signature back without as_array and so change their binary encoding and id; legacy transactions come back as version 1; an unsigned registration has no JSON (C40_tx_json_false). Proved for every complete transaction: version, JSON form and signature preimages for all nine versions, binary encoding for six.",
 "C41": "Distinctness proved for all transactions and indices; coin index check proved; false for block stakes: the check uses the number of coin outputs (C41_blockstake_index_false).",
 "C66": "proved for every IP library that parses what it prints (LawfulIp)",
 "C67": "False: a trailing newline is accepted (C67 false theorem); proved for the rest.",
 "C68": "False: the two checks disagree on underscores, signs, blanks and doubled prefixes; proved for hex texts, bytes and address objects (C68_values).",
 "C74": "False: NameError for transactions without id; transactions read from JSON without an id all compare equal (C74_read_false). Proved for transactions with ids, also those read with one, up to collisions of Python's str hash.",
 "C75": "proved for all nine versions, also across versions",
 "C76": "False for IP addresses and bot names (AttributeError); proved for host names.",
 "C48": "proved for a single balance over every history and for a balance of several wallets (reports of one id agree)",
 "C49": "False: an output reported confirmed and then unconfirmed is counted twice; proved for histories where confirmations are not taken back, and the amounts split exactly into available and locked.",
 "C50": "False: the merge checks nothing across the balances; proved: spent ids stay known, nothing new is counted, and no spent output is offered when neither balance counts what the other knows spent.",
 "C51": "False above 28 digits (decimal rounding); proved when the offered outputs stay below 10^19 TFT.",
 "C52": "The limit of 99 inputs is proved unconditionally. Distinct inputs: false when an output is counted twice (C49), proved when the wallets offer no output twice.",
 "C53": "Eligibility and never-spent are proved. Never-locked is false for multi-signature wallets (their balances never learn the chain state), proved for balances that know the chain.",
 "C54": "False for mixed personal and multi-signature sources with more than 99 outputs; proved for personal sources of any size, for a source of one multi-signature wallet of any size, and for any sources with at most 99 outputs.",
 "C55": "Spends exactly the selected outputs: proved unconditionally. Each once: false after a confirmation is taken back (C49), proved otherwise. Amounts: proved below 10^19 TFT.",
 "C77": "False: an output below the fee alone in the last transaction makes the drain raise NameError; proved when every output is worth the fee.",
 "C78": "False: AttributeError whenever a multi-signature wallet is known to both, and always for the balance of a multi-signature wallet; proved for disjoint multi-signature wallets.",
 "C56": {
  "status": "partial",
  "note": "coins_send, the transaction builder (after any history of output_add calls) and sending to an ERC20 address: whatever is posted or returned pays exactly what was asked, the remainder goes to the refund address, and inputs = outputs + fee. False beyond 28 decimal digits (C56_huge_false): proved when the amounts of the wallet add up to less than 10^28 smallest units."
 },
 "C57": "All wallet operations that submit (coins_send, builder, ERC20 sends, minter, 3Bot, ERC20 registration, transaction_sign's helpers): at most one transaction is posted, only with all signatures present and genuine; True is returned iff posted; False only when a signature is missing.",
 "C79": {
  "status": "partial",
  "note": "record_new, record_update, name_transfer, ERC20 address_register. False beyond 28 decimal digits (C79_huge_false): proved when the amounts of the wallet add up to less than 10^28 smallest units."
 },
 "C80": "Active-bot guards proved; False part: empty lists of names/addresses pass the 'at least one must be given' checks.",
 "C81": "coins_new and definition_set: everything posted or returned is exactly what was asked.",
 "C87": "Finding: whole numbers (int, digits-only text), documented as smallest units, are taken as whole TFT. Decimal texts mean what they say (below the 28 digit bound).",
 "C82": {
  "status": "partial",
  "note": "Proved for every transaction that is not a legacy (version 0) one and whose name-transfer parties differ: nothing but genuine signatures of own keys is added, the flags are true, at most one submission and only if asked; submitted transactions are completely signed if the signatures they had were genuine; own inputs are signed. Findings: foreign signatures are not verified before submitting; an already complete transaction is never submitted; a transaction without coin inputs set raises TypeError. Legacy transactions are signed for other bytes than those to be signed (C82_legacy_false)."
 },
 "C83": {
  "status": "proved",
  "note": "coins_send (including to an ERC20 address), the transaction builder, the four 3Bot and ERC20 registration operations, whenever all that may be spent belongs to single-signature addresses of the wallet. Updates and name transfers moreover need the keys of the 3Bots in the wallet; for a transfer between two 3Bots with the same key see C80."
 },
 "C84": {
  "status": "partial",
  "note": "False in general: the wallet computes a fresh balance from the explorers for each operation and remembers nothing (C84_double_spend_false). Proved: every paying operation spends only outputs the balance offered when it began, hence no double spend once the balance no longer offers what the earlier transaction spends."
 },
 "C85": {
  "status": "partial",
  "note": "False: the answer to the submission may get lost, and even with a perfect network a payment to the address of an own multi-signature wallet (given as address) is submitted and then raises TypeError. Proved for all submitting operations: an exception means nothing was submitted, unless one of the named troubles came up afterwards."
 },
 "C86": {
  "status": "proved",
  "note": "For coins_send, the builder, coins_new, the 3Bot operations, address_register, transaction_sign (all versions) and the atomic swap operations. The network's way to compute ids is specified in Spec.NetworkOutputId."
 },
 "C58": {
  "status": "proved",
  "note": "Proved for every pattern of used addresses: the scan looks at blocks of key_scan_count keys (Spec.LookedAt), finds every used key it looks at, adds nothing else, ends if finitely many keys are used, and raises no KeyError in any reachable state (no two keys of the seed having the same address)."
 },
 "C59": {
  "status": "proved",
  "note": "blake2b and ed25519 are parameters; preimages proved injective. Holds for all histories of scans (also interrupted) and key requests. key_start_index is ignored by the code (recorded in DESIGN.md)."
 },
 "C92": {
  "status": "partial",
  "note": "False: a scan drops the last pooled key of each round (slice off by one), which is then never found again whatever happens (C92_skipped_false, C92_skipped_forever). Proved: no key is skipped when used keys have no gaps."
 },
 "C64": "Proved for every contract, secret and wallet.",
 "C65": {
  "status": "partial",
  "note": "Amounts below 10^28 smallest units. Redeem and refund guards, amounts and addressees proved; a wallet that holds both keys signs a refund with the receiver's key (C65_refund_signed_false), proved otherwise."
 },
 "C60": {
  "status": "proved",
  "note": "Every list of explorers and every pattern of answers; the HTTP layer is abstracted to answer/refused/unreachable/bad URL."
 },
 "C61": {
  "status": "partial",
  "note": "The returned output is the one listed under the id in the returned creating transaction (proved). False: the returned spending transaction need not spend it (C61_spend_false), outputs of ERC20 withdrawals are never found (C61_withdrawal_false), outputs spent in the creating block or by an unconfirmed transaction may not be found (C61_same_block_false)."
 },
 "C93": {
  "status": "partial",
  "note": "False: the first HTTP error stops the search, so a request fails although another explorer would answer (C93_failover_false). Proved when no explorer answers with an HTTP error (C93_failover_partial)."
 },
 "C94": {
  "status": "partial",
  "note": "Proved for inputs, outputs and confirmation; false for the output of an ERC20 withdrawal, whose id is lost (C94_withdrawal_false). Every entry of the documented form is accepted (C94_accepted)."
 },
 "C95": {
  "status": "partial",
  "note": "Proved for transactions and blocks asked for by id; false for blocks by height, for 3Bot records and for ERC20 registrations, which are not checked. Blocks and records are returned as the answer describes them; an unknown 3Bot raises ThreeBotNotFound."
 },
 "C62": {
  "status": "proved",
  "note": "For heights below 2^63-1 (the sort key of unconfirmed transactions is sys.maxsize). Answers of the documented form are accepted (C62_accepted)."
 },
 "C63": {
  "status": "partial",
  "note": "Proved for coherent histories (an id stands for one output). False: ERC20 withdrawals lose their output id, so several collapse into one and spent ones stay in the balance; a mint condition definition empties the balance of a multi-signature address; a plain output at a multi-signature address makes the balance raise TypeError. The balance is available for every history whose outputs have addresses and, at a multi-signature address, name its owners."
 },
 "C96": {
  "status": "partial",
  "note": "Proved for coherent histories; false for a wallet two of whose addresses own a multi-signature address together: AttributeError (C96_two_owners_false). The balance is available otherwise (C96_available_partial), except while the chain has only its first block: ValueError (C96_first_block_false)."
 },
 "C97": {
  "status": "partial",
  "note": "False: the blocks in an explorer's answer are ignored, so block rewards are never part of a balance (C97_rewards_false, for every answer)."
 },
 "C98": {
  "status": "partial",
  "note": "Proved whenever it returns; false for a wallet with an unused address, for which it always raises ExplorerNoContent (C98_unused_false)."
 },
 "C88": "The returned contract's fields and the single submission are proved (C88_returned, C88_submits). The id clause is false while signatures of a multisig source are missing: the id is computed before the missing signatures are added (C88_id_false).",
 "C89": "Every check is proved for fetched and given contracts, and acceptance is characterised exactly for fetched ones (C89_accepts). False of the code: a given contract that is already spent passes (C89_spent_false), and a minimum refund time given as a duration in seconds is compared the wrong way round (C89_time_false, C89_seconds_false).",
 "C91": "Proved when the chain time is available after submission; false otherwise: the contract is on chain, an exception is raised and the secret is lost (C91_secret_false).",
 "C99": {
  "status": "proved",
  "note": "Under bounds on list lengths (2^20; 15 for 3Bot lists). Legacy (version 0) transactions: C99_legacy_*; one that spends a multi-signature output does not fit (AttributeError: C99_legacy_multisig_unfit)."
 },
 "C100": "Proved for personal sources, for one multi-signature wallet of any size as the source, and for wallets offering at most 99 outputs altogether (C54 shows that more multi-signature outputs can be missed), when no multi-signature condition names an owner of the wallet twice; false otherwise (C100_owner_twice_false). A source given as a list of one text is never usable: C100_one_text_false.",
 "C90": "Redeeming and refunding are proved to submit whenever the contract is reported unspent, the wallet holds the receiver (sender), the secret opens it and the fields fit the wire format. False: a contract for the free-for-all wallet (participator None) is created but can never be redeemed (C90_free_for_all_stuck, C90_free_for_all_false), and the documented multi-signature participators are refused (C90_multisig_participator_false).",
 "C69": "Proved for every duration from 0 up to 10^9 days, with the exact set of accepted texts and their meaning; texts with a decimal point rest on float and timedelta arithmetic, which is a parameter here and modelled in C131. False: negative durations are printed as other ones (C69_negative_false), durations from 10^9 days on are printed as unreadable texts (C69_huge_false).",
 "C101": {
  "status": "partial",
  "note": "Proved for durations and for every documented date form (also am/pm times; what is not a time is refused), relative to the calendar (time.strptime and mktime are a parameter; the theorem says which text is read with which format; C130 makes it concrete, C131 durations with decimal points). False: a time of the day alone, documented as '12:00:10', is refused (C101_clock_false); dates before 5 November 1985 are taken as block heights (C101_early_date_false)."
 },
 "C102": {
  "status": "proved",
  "note": "For explorers that answer in the documented form (Spec/ChainInfo). The last block: its id is not all zeros."
 },
 "C103": {
  "status": "proved",
  "note": "In every state reached by key requests and scans, for truthful explorers. The class AddressNotInWallet is modelled as its base class Exception."
 },
 "C104": {
  "status": "proved",
  "note": "All submitting operations: payments, builder, minting, 3Bot and ERC20 operations, transaction_sign (object and JSON) and the atomic swap operations."
 },
 "C105": {
  "status": "partial",
  "note": "False: no transaction object is ever sent, as the version in the dict to be dumped is no JSON value (see C72): transaction_put raises TypeError before anything is posted, so with the explorer client of the library no wallet operation submits anything. Proved for transactions given as their JSON. All other properties about submissions are therefore stated for any way of submitting (the methods explorer_get and explorer_post are made to be overridden)."
 },
 "C106": {
  "status": "partial",
  "note": "False: a name that is no network (such as a misspelling) is not refused: the client is then for the standard network, or has no network at all. Proved for names of networks, network types and networks told by explorers; fees and explorers of each network."
 },
 "C107": {
  "status": "partial",
  "note": "Exact for personal balances and for multi-signature wallets whose outputs are without time lock. False otherwise: when the first reported output of a multi-signature wallet is time-locked, the report raises AttributeError and the output is not counted."
 },
 "C108": {
  "status": "proved",
  "note": "For amounts that together stay below 10^28 smallest units. The text of the time is a parameter."
 },
 "C109": {
  "status": "partial",
  "note": "For outputs that add up to less than 10^28 smallest units, a source of personal addresses, of one multi-signature wallet, or of at most 99 outputs, addresses given as text or number (address objects cannot be copied, C76), outputs that name no owner twice (see C100), and name transfers between bots with different addresses (C73 for the other case). C109_same_key_false: a transfer between bots with the same key is never submitted."
 },
 "C110": {
  "status": "partial",
  "note": "False if the mint condition names an owner twice whose key the wallet has: then minting raises ValueError (C110_owner_twice_false). Proved for all other mint conditions."
 },
 "C111": {
  "status": "proved",
  "note": "C111_wire_format adds, with C99, that the bytes exist. C111_overlong_false: outside the quantifier, a 3Bot registration with 17 addresses is not refused but encoded with the counts \"1 address, 1 name\"."
 },
 "C112": {
  "status": "proved",
  "note": "C112_legacy_bytes also asks that the lists fit their lengths."
 },
 "C113": "C113_requests: exactly the owners whose keys are not entered are asked, in order, for every askable transaction (fulfillments of the kind their conditions need). C113_answered_partial: an answered request disappears and the others stay, also for atomic swaps neither party of which has signed; name transfers between the same keys are left out (C73). C113_complete_partial: when nothing is asked all is signed. C113_asks_false: a fulfilled transaction still asks the remaining owners of a multi-signature wallet, the owner of a nil output is asked for ever, and after an attempt with a malformed signature the owner is not asked again although nothing is signed (C70). C113_swap_false: once one party of an atomic swap has signed, the other one is still asked, and its answer replaces the first signature.",
 "C114": {
  "status": "partial",
  "note": "C114_separate_partial: for every program that never assigns the inputs of one transaction to another one, each transaction is what the acts on it alone make of it. With such an assignment the property fails: C114_follow shows that from then on both transactions show the same fulfillments wherever signatures arrive, and C114_shared_false exhibits a payment that counts as fulfilled although only another transaction, with other bytes to sign, was signed. Blockstake inputs, conditions and amounts keep being values here."
 },
 "C115": {
  "status": "partial",
  "note": "C115_fields_partial, C115_accepts and C115_refused hold for all classes, properties and histories, except that a refused coin_outputs assignment of an ordinary payment or coin creation empties the list first (C115_refused_false), and that numbers that are not ints are left out for the number of months (its comparisons accept any number). C115_fees: an explicit zero is a fee, None is not. C115_created: the output of an ERC20 coin creation."
 },
 "C116": {
  "status": "partial",
  "note": "An output keeps the Currency object it is given, and += changes it in place: C116_inplace_false (10 become 15 after the output was added). C116_amounts_partial: programs that do not change outputs in place nor a variable that was given to an output. C116_fees: miner fees are copies, so they and the variables are right in every program that does not change outputs in place."
 },
 "C117": {
  "status": "proved",
  "note": "C117_equal, C117_json (the comparison is that of the JSON), C117_text (the whole text), C117_refund (agreement with refund), C117_now. Refund times more than 10^9 days ahead are left out (their duration is not readable: C69_huge_false)."
 },
 "C118": {
  "status": "partial",
  "note": "C118_amounts, C118_whole_number, C118_amount_text, C118_any_answer, C118_total_order, C118_data, C118_data_kinds, C118_data_keys, C118_identifier_keys, C118_address, C118_address_keys hold in full. The last clause is false of the code: comparing with a negative number raises a NameError and with None a TypeError (C118_amounts_false), a text that is no address raises (C118_address_false); and a text equal to an identifier need not have its hash (C118_text_key_false)."
 },
 "C119": {
  "status": "partial",
  "note": "C119_output, C119_sum, C119_chain (the balance itself changes as in the value model, so that C56-C63 and C96 hold of objects), C119_apart, C119_new, C119_personal (outputs, addresses and chain context of a personal balance are never touched from elsewhere), C119_own_id, and C119_alone_partial for programs that merge only balances without multi-signature wallets. False in general: merged multi-signature wallets are shared, not copied (C119_merged_false), and a block identifier read earlier changes with the balance (C119_block_id_false; C119_block_id_partial says when it does not)."
 },
 "C120": {
  "status": "partial",
  "note": "C120_valid_partial holds for wallets whose addresses took part in no ERC20 withdrawal and whose shared addresses took part in no mint definition. Both restrictions are bugs of the code: outputs of a withdrawal are described without ids and are then spent with an empty id (C120_withdrawal_false), and once a shared address was made the mint condition its balance forgets what was spent since, so that an output spent already is spent again (C120_mint_false). For atomic swaps: C120_contract_partial (new contracts, with the same restrictions), C120_redeem_partial and C120_refund_partial (claims). The restrictions on claims are bugs too: a refund of a contract between two addresses of the wallet is signed by the wrong one (C120_refund_false), a contract worth exactly the miner fee is claimed with an output worth nothing (C120_worthless_false), and the empty secret is accepted (C120_empty_secret_false)."
 },
 "C121": {
  "status": "partial",
  "note": "The wallets are as in C120 (no ERC20 withdrawal or mint definition in their histories, because of the bugs shown by C120_withdrawal_false and C120_mint_false), claims are of contracts worth more than the miner fee whose parties are not both addresses of the wallet (C120_worthless_false, C120_refund_false) with secrets of 32 bytes (C120_empty_secret_false). Each wallet reads its balance from the chain as it is when it acts: with a balance read earlier it spends outputs again (C84_double_spend_false), which the network rejects. C121_untouched_partial is for personal addresses; shared ones are for those who sign (C83, C85)."
 },
 "C122": {
  "status": "partial",
  "note": "The reading of answers holds for answers on one line (C122_answer_partial): a client reads the first line of the body only, so an answer laid out over several lines is refused, even one written by json_dumps itself (C122_answer_false). Numbers with a fraction or exponent and lone surrogates are outside the values of the model; limits of Python on nesting and on the number of digits are not modelled."
 },
 "C123": {
  "status": "partial",
  "note": "Not for wallets made from bytes of another number than 16, 20, 24, 28 or 32: they work but have no words (C123_raw_false). The package mnemonic is a dependency; its model follows the standard and is checked on standard vectors. The word list is any list of 2048 different words without spaces, sha256 any function with 32 bytes of output."
 },
 "C124": {
  "status": "partial",
  "note": "False of the code: a contract in an exception of redeem or refund says it is spent although it is not (C124_unspent_false); for lock times beyond what the platform can print as a date, refund raises OverflowError instead (C124_undated_false); an own address in capital letters is refused as not owned (C124_spelling_false). What is asked in the course of an operation (explorers, key scan) is assumed not to raise the classes in question itself. Messages are not modelled, except that printing a date may raise. ExplorerInvalidResponse is not covered."
 },
 "C125": {
  "status": "partial",
  "note": "Texts given by a user: proved in full (which are accepted, what they mean, why the others are refused). JSON: false beyond 28 digits, where decimals are accepted and lost (C125_json_false); proved below 10^28. The two refusals meant by the code (CurrencyNegativeValue, CurrencyPrecisionOverflow) are raised as NameError, because the module does not import errors. Letters other than ASCII: str.upper turns a few of them into ASCII letters, but none that may occur in an accepted text. The limits on exponents of the decimal module are not modelled."
 },
 "C126": {
  "status": "partial",
  "note": "Payments from multi-signature wallets: proved for any number of owners, inputs and hands, when no owner has the same key in two of the wallets (an owner who has signed is not asked again, see C113, but which of two wallets then signs is left out here) and the owners are different personal addresses. Payments from personal outputs of several owners: false, every wallet knows its own outputs only and takes the inputs of the others as not fulfilled, so no wallet ever submits the completely signed payment (C126_personal_false, C126_unknown)."
 },
 "C127": {
  "status": "proved",
  "note": "Amounts of money are texts with a grammar of their own, in C125; here they are what those texts are read as. The module ipaddress is a parameter. Floats in JSON are not modelled. What is refused is refused with some exception: which one is C124."
 },
 "C128": {
  "status": "partial",
  "note": "Complete characterisation of the texts and numbers accepted and of the address they give. False for one kind of text: the pattern ends in $, which in Python also matches before a final newline, so a host name followed by a newline is accepted with the newline (C128_newline_false)."
 },
 "C129": {
  "status": "partial",
  "note": "The module is that of CPython 3.11: before 3.9.5 leading zeros were accepted in IPv4 addresses, before 3.9 scope ids were refused. Partial only because of the newline after a host name (C128_newline_false), which C129_network_address_partial states."
 },
 "C130": {
  "status": "proved",
  "note": "The C locale. What mktime does with a local time that is skipped or shown twice is a parameter (stamp), of which C130_shown assumes only that the clock shows the text at the timestamp it gives (LawfulZone); C130_repeated_hour_false says why the exception in the statement is needed. Numbers with a point or beyond 2^53 in front of a unit go through floating point arithmetic, which is a parameter here and modelled in C131. The RuntimeError of an unknown unit is not told from Exception."
 },
 "C131": {
  "status": "proved",
  "note": "Exponents of floats are not bounded in the model; what would overflow is too large for a timedelta. Findings: \"0.9999999s\" is read as one second (C131_dropped_false), a millisecond less than 10^9 days as 10^9 days (C131_huge_false), and \"-4.1m\" is 245 seconds ago while \"4.1m\" is 246 seconds (C131_ago_false)."
 },
 "C132": {
  "status": "proved",
  "note": "The end of the range of years is not modelled. Finding: a microsecond before the year 10000 is rounded up to it (C132_far_false)."
 },
 "C133": {
  "status": "proved",
  "note": "Parameters: what becomes of a query in an address (parse_qs and urlencode; no endpoint has one), the NFKC check of hosts with other than ASCII letters, unquote of hosts with a percent sign. Not modelled: proxies, redirections. 3Bot identifiers given as text are passed on as they are, with the blanks that keys may contain."
 },
 "C134": {
  "status": "proved",
  "note": "Spending is possible in general only if the wallet has the keys (that it succeeds then is C100-C102). That a time lock has passed is not part of having the keys (see C120). transaction_sign signs what others made, with keys of the wallet only (C134_private); the inputs others signed stay as they are."
 },
 "C135": {
  "status": "partial",
  "note": "Partial because of the assumptions of Informed (no ERC20 withdrawals among the answers and no mint definitions, see C120), under which the explorers and the balance are known to agree with the chain. Shares of multi-signature wallets are not part of what a wallet itself is shown; they are the subject of C135_shared_partial."
 },
 "C136": {
  "status": "partial",
  "note": "Partial because of the assumptions of Informed (see C120, C135), and because unspent outputs are assumed to have ordinary conditions (no owner twice, no time lock of a contract, C100_owner_twice_false). For the multi-signature address it is assumed that the conditions explorers describe have at most 2^20 owners with well-formed addresses. 3Bot operations and the registration of an address are covered with keys the wallet has already; that the new key made without an index is one whose address can be registered is C109."
 },
 "C137": {
  "status": "partial",
  "note": "Partial because of the assumptions: secrets have 32 bytes, contracts are worth more than the miner fee (C120_empty_secret_false, C120_worthless_false), and the wallet that refunds lacks the key of the receiver (C120_refund_false)."
 },
 "C138": {
  "status": "partial",
  "note": "Partial because of the assumptions of C120 and C137: truthful explorers, no mint or withdrawal transactions, secrets of 32 bytes, contracts whose parties are personal addresses, worth more than the fee, and a refunding wallet without the key of the receiver."
 }
}