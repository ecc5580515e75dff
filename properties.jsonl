{"id": "C01", "title": "Sia integers: exact range, exact bytes", "statement": "SiaBinaryEncoder.add_int accepts an integer iff 0 <= v < 2^64, appends exactly eight bytes whose little-endian value is v, and otherwise raises IntegerOutOfRange and appends nothing.", "quantifier": "every integer v and every encoder state", "why_tests_cant": "the domain is all integers; tests sample a few boundaries", "anchors": ["tfchain/encoders/sia.py:SiaBinaryEncoder.add_int"]}
{"id": "C02", "title": "Rivine integers: exact range, exact bytes", "statement": "RivineBinaryEncoder.add_int8/16/24/32/64 accept an integer iff 0 <= v < 2^(8n) and then append exactly n bytes whose little-endian value is v; otherwise they raise IntegerOutOfRange and append nothing.", "quantifier": "every integer and every width n in {1,2,3,4,8}", "why_tests_cant": "the domain is all integers for every width", "anchors": ["tfchain/encoders/rivine.py:RivineBinaryEncoder.add_int8..add_int64,_check_int_type"]}
{"id": "C03", "title": "Rivine slice-length prefix is decodable and canonical", "statement": "For every length below 2^29 the rivine slice-length prefix is decoded unambiguously (by the published rivbin rule, from the low bits of the first byte) to exactly that length whatever bytes follow, its own size is 1, 2, 3 or 4 bytes by magnitude, and every longer length is refused with SliceLengthOutOfRange.", "quantifier": "every length and every continuation of the stream", "why_tests_cant": "2^29 lengths with four formats and arbitrary suffixes", "anchors": ["tfchain/encoders/rivine.py:RivineBinaryEncoder._add_slice_length"]}
{"id": "C04", "title": "Encoded byte slices are self-delimiting", "statement": "A byte string encoded as a slice (sia or rivine) followed by any other bytes can be split back into exactly that byte string and those bytes; so two different sequences of slices never produce the same bytes.", "quantifier": "every byte string (below the length limits) and every suffix", "why_tests_cant": "unbounded byte strings and suffixes", "anchors": ["tfchain/encoders/sia.py:add_slice", "tfchain/encoders/rivine.py:add_slice"]}
{"id": "C05", "title": "Text slices are self-delimiting", "statement": "A str encoded as a slice (sia or rivine) followed by any bytes can be split back into exactly the UTF-8 bytes of that str and those bytes.", "quantifier": "every str and every suffix", "why_tests_cant": "unbounded text over all of Unicode; tests use ASCII", "anchors": ["tfchain/encoders/sia.py:add_slice", "tfchain/encoders/rivine.py:add_slice"]}
{"id": "C06", "title": "Encoders are append-only and compositional", "statement": "Adding values to an encoder only ever appends to the data already there, and encoding a list of values is the concatenation of their separate encodings, stopping at the first value that is refused. add_array puts nothing in front of the values, add_slice their number, and add_byte appends exactly one byte.", "quantifier": "every encoder state and every list of values of any nesting", "why_tests_cant": "unbounded operation histories on the encoder", "anchors": ["tfchain/encoders/sia.py:add,add_all,add_array", "tfchain/encoders/rivine.py:add,add_all,add_array"]}
{"id": "C07", "title": "Merkle root is the standard unbalanced binary Merkle root", "statement": "After pushing any non-empty sequence of leaves, Tree.root() equals the recursive definition: one leaf hashes to H(00||leaf); otherwise split at the largest power of two strictly below the count and hash H(01||left||right).", "quantifier": "every hash function, every number and content of leaves", "why_tests_cant": "unbounded leaf counts; the incremental stack and the recursive definition only agree by induction", "anchors": ["tfchain/crypto/merkletree.py:Tree.push,Tree.root,join_subtree,leaf_sum,node_sum"]}
{"id": "C08", "title": "Merkle tree memory is logarithmic and well-shaped", "statement": "After n pushes the internal stack holds exactly one subtree per set bit of n, with strictly increasing heights, so at most log2(n)+1 subtrees are kept.", "quantifier": "every sequence of pushes", "why_tests_cant": "unbounded histories of pushes", "anchors": ["tfchain/crypto/merkletree.py:Tree.push"]}
{"id": "C09", "title": "The root of an empty Merkle tree is defined", "statement": "Tree.root() on a tree with no leaves returns the hash of the empty byte string.", "quantifier": "every hash function", "why_tests_cant": "quantified over hash functions; no unit test covers the branch", "anchors": ["tfchain/crypto/merkletree.py:Tree.root"]}
{"id": "C10", "title": "BinaryData never holds a wrong-size value", "statement": "A BinaryData with fixed size n holds, after any history of constructions and successful or failed assignments, either the empty value or exactly n bytes; a failed assignment leaves the old value.", "quantifier": "every fixed size, string encoding and assignment history", "why_tests_cant": "unbounded assignment histories and inputs", "anchors": ["tfchain/types/PrimitiveTypes.py:BinaryData"]}
{"id": "C11", "title": "BinaryData text form round-trips", "statement": "For each string encoding (hex, hexprefix, base64), parsing the str/JSON form of a BinaryData yields exactly the same bytes.", "quantifier": "every byte string and each encoding", "why_tests_cant": "all byte strings of every length (base64 padding has three cases, hexprefix a prefix ambiguity)", "anchors": ["tfchain/types/PrimitiveTypes.py:BinaryData.__str__,json,from_json,value"]}
{"id": "C12", "title": "Hash text form round-trips", "statement": "Parsing the str/JSON form of a Hash yields an equal Hash with the same binary encoding.", "quantifier": "every Hash value including the default", "why_tests_cant": "all 2^256 values plus the empty one", "anchors": ["tfchain/types/PrimitiveTypes.py:Hash"]}
{"id": "C13", "title": "A Currency is never negative nor finer than 1e-9", "statement": "Whatever sequence of constructions, assignments and arithmetic is performed, every Currency that exists has a non-negative value that is a whole number of 1e-9 TFT; every operation that would break this raises and changes nothing.", "quantifier": "every history of Currency operations and operands", "why_tests_cant": "unbounded operation histories", "anchors": ["tfchain/types/PrimitiveTypes.py:Currency"]}
{"id": "C14", "title": "A refused Currency raises the documented error", "statement": "Setting a Currency to a negative value raises CurrencyNegativeValue and to one with more than nine decimals raises CurrencyPrecisionOverflow.", "quantifier": "every refused input", "why_tests_cant": "all negative and all over-precise decimals", "anchors": ["tfchain/types/PrimitiveTypes.py:Currency.value", "tfchain/errors.py:CurrencyNegativeValue,CurrencyPrecisionOverflow"]}
{"id": "C15", "title": "Currency arithmetic is exact", "statement": "a+b, a-b and a*b on Currency give the exact mathematical result in TFT whenever they return.", "quantifier": "every pair of Currency values", "why_tests_cant": "the operands are unbounded decimals; rounding happens only past 28 digits", "anchors": ["tfchain/types/PrimitiveTypes.py:Currency.__add__,__sub__,__mul__"]}
{"id": "C16", "title": "Reflected Currency subtraction", "statement": "x - c with a plain number on the left computes x minus c.", "quantifier": "every int x and Currency c", "why_tests_cant": "all pairs", "anchors": ["tfchain/types/PrimitiveTypes.py:Currency.__rsub__"]}
{"id": "C17", "title": "Currency JSON round-trips", "statement": "Currency.from_json(c.json()) equals c.", "quantifier": "every Currency", "why_tests_cant": "unbounded decimals; the failure is past 28 significant digits", "anchors": ["tfchain/types/PrimitiveTypes.py:Currency.json,from_json"]}
{"id": "C18", "title": "Currency text form round-trips", "statement": "Currency(str(c)) and Currency(c.str(with_unit=True)) equal c.", "quantifier": "every Currency", "why_tests_cant": "unbounded decimals, trailing-zero stripping, unit suffix", "anchors": ["tfchain/types/PrimitiveTypes.py:Currency.str,value"]}
{"id": "C19", "title": "Currency and Blockstake binary encodings are minimal and invertible", "statement": "The sia and rivine encodings of an amount carry the minimal big-endian byte string (no leading zero, empty for zero) of the amount in smallest units and can be split off any stream and decoded back to that amount; equal bytes imply equal amounts.", "quantifier": "every amount below the encodable limit and every suffix", "why_tests_cant": "unbounded amounts", "anchors": ["tfchain/types/PrimitiveTypes.py:Currency.sia_binary_encode,rivine_binary_encode", "tfchain/types/PrimitiveTypes.py:Blockstake"]}
{"id": "C20", "title": "Blockstake values are non-negative and JSON round-trips", "statement": "A Blockstake set from int or decimal text is a non-negative integer, negatives are refused, and from_json(json()) gives an equal value.", "quantifier": "every int / decimal text", "why_tests_cant": "unbounded integers", "anchors": ["tfchain/types/PrimitiveTypes.py:Blockstake"]}
{"id": "C21", "title": "PublicKey text form round-trips", "statement": "PublicKey.from_json(pk.json()) equals pk for every key with a 32-byte hash, and text with a wrong shape, unknown algorithm or a non 32-byte payload is refused.", "quantifier": "every public key and every text", "why_tests_cant": "2^256 keys and unbounded malformed texts", "anchors": ["tfchain/types/CryptoTypes.py:PublicKey,PublicKeySpecifier"]}
{"id": "C22", "title": "Addresses round-trip through text", "statement": "UnlockHash.from_json(str(uh)) equals uh for every proper address: types 1 (public key), 2 (atomic swap), 3 (multi-signature) with any 32-byte hash, and the nil type with the zero hash.", "quantifier": "every address, and every blake2b implementation with 32-byte digests", "why_tests_cant": "2^256 addresses per type", "anchors": ["tfchain/types/ConditionTypes.py:UnlockHash"]}
{"id": "C23", "title": "Only checksummed addresses are accepted", "statement": "If UnlockHash.from_json accepts a text, that text has 78 characters and ends in exactly the lower-case hex of the 6-byte checksum of the type and hash it denotes (zeros for the nil type), and re-printing the result gives back the text up to the case of the hash digits.", "quantifier": "every text", "why_tests_cant": "the whole space of texts", "anchors": ["tfchain/types/ConditionTypes.py:UnlockHash.from_json,__str__"]}
{"id": "C24", "title": "The default (nil) address behaves as one value", "statement": "The default UnlockHash equals the address obtained by parsing its own text form, and both have the same binary encoding.", "quantifier": "the default address, any hash function", "why_tests_cant": "states a law over two representations; no test compares them", "anchors": ["tfchain/types/ConditionTypes.py:UnlockHash"]}
{"id": "C25", "title": "A multi-signature address does not depend on owner order", "statement": "ConditionMultiSignature with the same owners in any order and the same required count has the same unlock hash, hence the same address text.", "quantifier": "every list of owners and every permutation of it", "why_tests_cant": "factorially many orders of unboundedly many owners", "anchors": ["tfchain/types/ConditionTypes.py:ConditionMultiSignature.unlockhash"]}
{"id": "C26", "title": "A time lock does not change the receiving address", "statement": "ConditionLockTime wrapping a condition has the unlock hash of that condition, and unwrapping returns it.", "quantifier": "every inner condition and lock value", "why_tests_cant": "all conditions and locks", "anchors": ["tfchain/types/ConditionTypes.py:ConditionLockTime"]}
{"id": "C27", "title": "Time-lock boundary and monotonicity", "statement": "An output locked until v (a height if v < 500000000, otherwise a timestamp) is locked exactly while the corresponding chain value is below v, and once unlocked stays unlocked as the chain advances.", "quantifier": "every lock value and every sequence of chain states", "why_tests_cant": "unbounded values and histories", "anchors": ["tfchain/types/ConditionTypes.py:OutputLock,ConditionLockTime.lock.locked_check"]}
{"id": "C28", "title": "Condition JSON round-trips", "statement": "conditions.from_json(c.json()) equals c (same type, same fields, same binary encodings) for every condition kind.", "quantifier": "every condition of kinds nil, unlock hash, atomic swap, lock time, multi-signature", "why_tests_cant": "unbounded nested data", "anchors": ["tfchain/types/ConditionTypes.py:from_json and the five condition classes"]}
{"id": "C29", "title": "Condition binary encodings are injective", "statement": "Two conditions with the same sia (or the same rivine) encoding are the same condition, even when the encoding is followed by other data.", "quantifier": "every pair of well-formed conditions and suffixes", "why_tests_cant": "all pairs of conditions", "anchors": ["tfchain/types/ConditionTypes.py:ConditionBaseClass.sia_binary_encode,rivine_binary_encode"]}
{"id": "C30", "title": "Recipient notation maps to the right condition", "statement": "from_recipient gives nil for None, the unlock-hash condition for an address, an all-owners multisig for a list, an m-of-n multisig for a pair in either order, wraps it in a lock iff a lock is given, and refuses everything else.", "quantifier": "every recipient value", "why_tests_cant": "unbounded recipient shapes", "anchors": ["tfchain/types/ConditionTypes.py:from_recipient"]}
{"id": "C31", "title": "A signature request signs at most once", "statement": "Over any history of calls at most one SignatureRequest.signature_fulfill succeeds; a call after a success raises DoubleSignError and changes neither the request nor the fulfillment.", "quantifier": "every history of fulfil attempts", "why_tests_cant": "unbounded histories", "anchors": ["tfchain/types/FulfillmentTypes.py:SignatureRequest"]}
{"id": "C32", "title": "Only the owner's key can fulfil a request", "statement": "A request for a wallet address is fulfilled only by a public key whose unlock hash is that address (any key only for the nil address); another key raises and leaves the fulfillment unchanged.", "quantifier": "every request address, key and signature", "why_tests_cant": "all keys and addresses", "anchors": ["tfchain/types/FulfillmentTypes.py:SignatureRequest.signature_fulfill"]}
{"id": "C33", "title": "Multi-signature fulfillment: distinct signers and threshold", "statement": "However pairs are added through the API, a FulfillmentMultiSignature never holds two signatures of the same public key, and it is fulfilled exactly when it holds at least the required number of signatures.", "quantifier": "every history of add_pair / signing calls", "why_tests_cant": "unbounded histories of signers", "anchors": ["tfchain/types/FulfillmentTypes.py:FulfillmentMultiSignature"]}
{"id": "C34", "title": "Every signer counted by a multi-signature fulfillment is an owner", "statement": "A multi-signature fulfillment reported as fulfilled for a condition holds signatures of at least minimum_nr_sig distinct owners of that condition.", "quantifier": "every history of add_pair / signing / JSON loading", "why_tests_cant": "unbounded histories including direct API use", "anchors": ["tfchain/types/FulfillmentTypes.py:FulfillmentMultiSignature.add_pair,from_json,is_fulfilled"]}
{"id": "C35", "title": "Fulfillment JSON round-trips", "statement": "fulfillments.from_json(f.json()) equals f, including whether it is fulfilled.", "quantifier": "every fulfillment of the three kinds", "why_tests_cant": "unbounded data incl. unsigned fulfillments", "anchors": ["tfchain/types/FulfillmentTypes.py:from_json"]}
{"id": "C36", "title": "Inputs and outputs JSON round-trip", "statement": "CoinInput, CoinOutput, BlockstakeInput and BlockstakeOutput survive json/from_json with the same binary encoding.", "quantifier": "every input/output", "why_tests_cant": "unbounded data", "anchors": ["tfchain/types/IO.py"]}
{"id": "C37", "title": "Version dispatch", "statement": "Transactions.from_json builds the class of the stated version for exactly the supported versions and refuses every other version or a non-dict.", "quantifier": "every JSON object", "why_tests_cant": "all integers as versions", "anchors": ["tfchain/types/transactions/Transactions.py:from_json"]}
{"id": "C38", "title": "What is signed does not depend on the signatures", "statement": "The signature hash of every input of a transaction (versions 1, 128, 129, 144, 145, 146, 208, 209, 210) is unchanged by any number of signatures added to any input, in any order, so signers may sign in any order.", "quantifier": "every transaction, every history of signing", "why_tests_cant": "all interleavings of unboundedly many signers", "anchors": ["tfchain/types/transactions/*.py:_signature_hash_input_get"]}
{"id": "C39", "title": "Signed bytes determine the payment (V1)", "statement": "Two version-1 transactions with the same signature preimage for the same extra objects have the same inputs' parent ids, the same outputs, fees and arbitrary data.", "quantifier": "every pair of V1 transactions", "why_tests_cant": "all pairs", "anchors": ["tfchain/types/transactions/Standard.py:TransactionV1._signature_hash_input_get"]}
{"id": "C40", "title": "Transaction JSON round-trips", "statement": "from_json(t.json()) gives a transaction with the same version, contents, binary encoding and signature preimages.", "quantifier": "every transaction of each version", "why_tests_cant": "unbounded contents, nine versions", "anchors": ["tfchain/types/transactions/*.py"]}
{"id": "C41", "title": "Output identifiers are pairwise distinct by construction", "statement": "For one transaction, the byte strings hashed into coin output ids (and block stake output ids, and the transaction id) are pairwise different for different indices and different kinds; an index without output is refused.", "quantifier": "every transaction and every pair of indices", "why_tests_cant": "all indices", "anchors": ["tfchain/types/transactions/Base.py:coin_outputid_new,blockstake_outputid_new,id"]}
{"id": "C42", "title": "Arbitrary data never exceeds 83 bytes", "statement": "A version-1 transaction accepted through the data setter carries at most 83 bytes of arbitrary data; larger data is refused and the old data kept.", "quantifier": "every data value and history of assignments", "why_tests_cant": "unbounded inputs", "anchors": ["tfchain/types/transactions/Standard.py:TransactionV1.data"]}
{"id": "C43", "title": "A transaction reported fulfilled has every input fulfilled", "statement": "is_fulfilled() is true iff every coin input, every blockstake input and every extension fulfillment is fulfilled.", "quantifier": "every transaction and signing history", "why_tests_cant": "unbounded inputs and orders", "anchors": ["tfchain/types/transactions/Base.py:is_fulfilled"]}
{"id": "C44", "title": "3Bot registration fee", "statement": "required_bot_fees of a registration is 90 TFT plus the monthly fee (10 per month, 30% off from 12, 50% off from 24 months) plus 50 per name beyond the first.", "quantifier": "every month count and name list", "why_tests_cant": "all months and lists", "anchors": ["tfchain/types/transactions/ThreeBot.py:BotTransactionBaseClass.compute_monthly_bot_fees,V144.required_bot_fees"]}
{"id": "C45", "title": "3Bot update and name-transfer fees", "statement": "The update fee is the monthly fee for the months added, plus 20 TFT iff any address is added or removed, plus 50 TFT per added name; the transfer fee is 50 TFT per name.", "quantifier": "every record update / name transfer", "why_tests_cant": "all months and lists", "anchors": ["tfchain/types/transactions/ThreeBot.py:V145,V146 required_bot_fees"]}
{"id": "C46", "title": "3Bot header bytes are decodable", "statement": "The months-and-flags byte and the packed address/name count byte written by 3Bot transactions determine months, flags and both counts.", "quantifier": "every legal month/flag/count combination", "why_tests_cant": "finite but large table; proved over the whole table and by arithmetic", "anchors": ["tfchain/types/transactions/ThreeBot.py:BotMonthsAndFlagsData,rivine encoders"]}
{"id": "C47", "title": "3Bot list limits are enforced", "statement": "A registration or update never holds more than ten addresses to add / five names to add, and a name transfer exactly the names last assigned.", "quantifier": "every history of assignments", "why_tests_cant": "unbounded histories", "anchors": ["tfchain/types/transactions/ThreeBot.py"]}
{"id": "C48", "title": "Spent outputs are never spendable", "statement": "After any history of output_add calls, an output reported spent (confirmed or not) is never among the available outputs afterwards, whatever is added later.", "quantifier": "every history of output_add calls", "why_tests_cant": "unbounded histories in any order", "anchors": ["tfchain/TFChainWallet.py:WalletBalance.output_add"]}
{"id": "C49", "title": "Each output is counted once", "statement": "After any history of output_add calls, an output id contributes to at most one of: available, locked, unconfirmed balance.", "quantifier": "every history of output_add calls", "why_tests_cant": "unbounded histories incl. re-org style confirmed->unconfirmed", "anchors": ["tfchain/TFChainWallet.py:WalletBalance"]}
{"id": "C50", "title": "Merging balances preserves spentness", "statement": "Merging two balances (balance_add) never makes an output known to be spent in one of them spendable in the merge.", "quantifier": "every pair of balances", "why_tests_cant": "all pairs of histories", "anchors": ["tfchain/TFChainWallet.py:WalletBalance.balance_add"]}
{"id": "C51", "title": "Funding conserves value", "statement": "When fund() succeeds, the inputs returned sum to exactly the requested amount plus the returned remainder.", "quantifier": "every wallet state and amount", "why_tests_cant": "unbounded output sets", "anchors": ["tfchain/TFChainWallet.py:WalletsBalance.fund"]}
{"id": "C52", "title": "Funding respects the 99-input limit and never reuses an output", "statement": "fund() returns at most 99 inputs and no two of them have the same parent output.", "quantifier": "every wallet state and amount", "why_tests_cant": "unbounded output sets; the FIFO eviction only triggers past 99", "anchors": ["tfchain/TFChainWallet.py:WalletsBalance.fund,_fund_individual,_fund_multisig"]}
{"id": "C53", "title": "Funding uses only spendable outputs of the wallet", "statement": "Every input returned by fund() is an output the balance reports available (or unconfirmed) under one of the requested source addresses, never a locked or spent one.", "quantifier": "every wallet state", "why_tests_cant": "unbounded output sets", "anchors": ["tfchain/TFChainWallet.py:WalletsBalance.fund"]}
{"id": "C54", "title": "Funding succeeds when the money is there", "statement": "fund() raises InsufficientFunds only if no at most 99 eligible outputs reach the amount.", "quantifier": "every wallet state and amount", "why_tests_cant": "a maximality claim over all subsets", "anchors": ["tfchain/TFChainWallet.py:WalletsBalance.fund"]}
{"id": "C55", "title": "Draining partitions the wallet", "statement": "drain() spends every selected output exactly once, in transactions of at most 99 inputs, and each transaction's output plus fee equals its inputs.", "quantifier": "every wallet state and fee", "why_tests_cant": "unbounded output sets", "anchors": ["tfchain/TFChainWallet.py:WalletBalance.drain"]}
{"id": "C56", "title": "A payment transaction balances", "statement": "coins_send and the transaction builder produce transactions whose coin inputs equal coin outputs plus miner fees, paying exactly the requested amounts to the requested recipients, with any remainder going to the refund address.", "quantifier": "every wallet state and payment request", "why_tests_cant": "all wallet states", "anchors": ["tfchain/TFChainWallet.py:TFChainWallet.coins_send,CoinTransactionBuilder"]}
{"id": "C57", "title": "Nothing is submitted unless fully signed", "statement": "A wallet operation posts a transaction to the network iff it is fully fulfilled after signing.", "quantifier": "every wallet operation", "why_tests_cant": "all states and signer sets", "anchors": ["tfchain/TFChainWallet.py"]}
{"id": "C58", "title": "Key scan keeps every used key", "statement": "After a key scan, every address with a balance found before the scan stopped is in the wallet.", "quantifier": "every usage pattern of addresses", "why_tests_cant": "all usage patterns; failing ones are sparse", "anchors": ["tfchain/TFChainWallet.py:TFChainWallet._key_scan"]}
{"id": "C59", "title": "Key derivation is deterministic and collision-free at the preimage level", "statement": "The i-th key is derived from blake2b of seed and LE64(i): different indices have different preimages and re-creating a wallet with the same seed gives the same keys.", "quantifier": "every seed and every pair of indices", "why_tests_cant": "2^64 indices", "anchors": ["tfchain/TFChainWallet.py:TFChainWallet._key_pair_new"]}
{"id": "C60", "title": "Explorer failover", "statement": "get/post return the answer of the first reachable explorer, raise its HTTP error if it answers with one, and raise ExplorerNotAvailable iff none is reachable.", "quantifier": "every address order and every pattern of failures", "why_tests_cant": "all failure patterns over unbounded address lists", "anchors": ["tfchain/TFChainExplorerClient.py:TFChainExplorerClient.get,post"]}
{"id": "C61", "title": "coin_output_get returns the requested output", "statement": "A coin (blockstake) output returned for an id is the output that the returned creation transaction lists under that id, and the spending transaction, if any, spends that id.", "quantifier": "every explorer answer", "why_tests_cant": "all well- and ill-formed answers", "anchors": ["tfchain/TFChainClient.py:TFChainClient._output_get"]}
{"id": "C62", "title": "Address history is ordered", "statement": "unlockhash_get returns the transactions with unconfirmed ones first and then by decreasing height, and loses or duplicates none.", "quantifier": "every explorer answer", "why_tests_cant": "all answers", "anchors": ["tfchain/TFChainClient.py:TFChainClient.unlockhash_get"]}
{"id": "C63", "title": "Explorer balances agree with the outputs", "statement": "The balance computed from an address' explorer history contains exactly the outputs of that address in it, those that are spent in the history being not available.", "quantifier": "every history", "why_tests_cant": "all histories", "anchors": ["tfchain/TFChainClient.py:ExplorerUnlockhashResult.balance"]}
{"id": "C64", "title": "Atomic swap secrets", "statement": "An atomic swap contract accepts a secret exactly when its sha256 is the contract's secret hash; redeem is refused otherwise and submits nothing.", "quantifier": "every contract and secret", "why_tests_cant": "all secrets", "anchors": ["tfchain/types/AtomicSwap.py:AtomicSwapContract.verify_secret", "tfchain/TFChainWallet.py:TFChainAtomicSwap.redeem"]}
{"id": "C65", "title": "Atomic swap redeem and refund guards", "statement": "Refund is refused while the contract is locked, redeem and refund pay exactly contract amount minus miner fee to the receiver/sender, and a new contract is refused unless its amount exceeds the miner fee.", "quantifier": "every contract, chain state and wallet", "why_tests_cant": "all contracts and times", "anchors": ["tfchain/TFChainWallet.py:AtomicSwap"]}
{"id": "C66", "title": "3Bot network addresses are decodable and normalised", "statement": "A NetworkAddress's header byte determines its kind and length for every address, and an IPv4-mapped IPv6 address is the same as the IPv4 address.", "quantifier": "every hostname, IPv4 and IPv6 address", "why_tests_cant": "2^128 addresses and unbounded names", "anchors": ["tfchain/types/ThreeBot.py:NetworkAddress"]}
{"id": "C67", "title": "Only well-formed 3Bot names are accepted", "statement": "A BotName is accepted iff it consists of dot-separated groups of at least five letters/digits/dashes (each starting with a letter and ending with a letter or digit) and is 5 to 63 characters long.", "quantifier": "every text", "why_tests_cant": "all texts", "anchors": ["tfchain/types/ThreeBot.py:BotName"]}
{"id": "C68", "title": "ERC20 address validity check agrees with the constructor", "statement": "ERC20Address.is_valid_value(text) is true exactly for the texts the constructor accepts as a 20-byte address.", "quantifier": "every text", "why_tests_cant": "all texts", "anchors": ["tfchain/types/ERC20.py:ERC20Address"]}
{"id": "C69", "title": "Duration text round-trips", "statement": "A duration printed by toString parses back to the same duration.", "quantifier": "every duration", "why_tests_cant": "all durations", "anchors": ["tfchain/internal/jsutils.py:Duration"]}
{"id": "C70", "title": "A failed signing attempt leaves no trace", "statement": "A signature_fulfill that raises leaves the fulfillment exactly as it was.", "quantifier": "every fulfillment, request, key and signature", "why_tests_cant": "all keys and signatures", "anchors": ["tfchain/types/FulfillmentTypes.py:SignatureRequest", "tfchain/types/FulfillmentTypes.py:FulfillmentSingleSignature.signature_add"]}
{"id": "C71", "title": "Copying inputs keeps unknown parents unknown", "statement": "Assigning a list of coin inputs to a transaction's coin_inputs keeps each input's parent id, fulfillment and knowledge of its parent output: an input whose parent output is unknown stays unfulfilled.", "quantifier": "every list of coin inputs", "why_tests_cant": "all inputs", "anchors": ["tfchain/types/transactions/Standard.py:coin_inputs", "tfchain/types/IO.py:CoinInput.parent_output"]}
{"id": "C72", "title": "A transaction can be serialised for posting", "statement": "The object returned by a transaction's json() can be dumped as JSON text, so it can be posted to an explorer.", "quantifier": "every transaction", "why_tests_cant": "all transactions", "anchors": ["tfchain/types/transactions/Base.py:TransactionBaseClass.json", "tfchain/internal/jsutils.py:json_dumps"]}
{"id": "C73", "title": "A name transfer is signed by both parties", "statement": "When the sender's request and the receiver's request of a bot name transfer have both been fulfilled, both signatures are present, whoever signs first.", "quantifier": "every pair of keys and every order of signing", "why_tests_cant": "all key pairs", "anchors": ["tfchain/types/transactions/ThreeBot.py:TransactionV146.signature_add"]}
{"id": "C74", "title": "Transactions can be compared", "statement": "Comparing two transactions, or using one in a set or as a dict key, works for every transaction; two transactions are equal iff they have the same id (or, without ids, the same JSON form).", "quantifier": "every pair of transactions, with and without id", "why_tests_cant": "all transactions", "anchors": ["tfchain/types/transactions/Base.py:TransactionBaseClass.__hash__,__eq__"]}
{"id": "C75", "title": "Signed bytes determine the contents (all versions)", "statement": "For transactions of any version ready for signing (hashes, keys and 8-byte nonces of full length, legal amounts), equal signature preimages for the same extra objects imply equal versions and equal contents (everything but signatures).", "quantifier": "every pair of transactions of each version, also of different versions", "why_tests_cant": "all pairs", "anchors": ["tfchain/types/transactions/*.py:_signature_hash_input_get"]}
{"id": "C76", "title": "3Bot values can be copied", "statement": "A NetworkAddress or BotName can be created from another one and equals it.", "quantifier": "every address and name", "why_tests_cant": "all values", "anchors": ["tfchain/types/ThreeBot.py:NetworkAddress.value", "tfchain/types/ThreeBot.py:BotName.value"]}
{"id": "C77", "title": "Draining succeeds whenever there is enough", "statement": "drain() succeeds and moves the coins whenever the selected outputs together are worth more than the fees of the transactions needed.", "quantifier": "every wallet state and fee", "why_tests_cant": "unbounded output sets; the failing ones need 100 outputs", "anchors": ["tfchain/TFChainWallet.py:WalletBalance.drain"]}
{"id": "C78", "title": "Balances that know common multi-signature wallets can be combined", "statement": "balance_add combines any two balances, including those of multi-signature wallets and of two addresses that co-own one, without losing outputs or raising.", "quantifier": "every pair of balances", "why_tests_cant": "all pairs", "anchors": ["tfchain/TFChainWallet.py:WalletsBalance.balance_add,MultiSigWalletBalance.balance_add"]}
{"id": "C79", "title": "3Bot and ERC20 registrations do what was asked", "statement": "record_new, record_update, name_transfer and address_register produce a transaction holding exactly the given months, names, addresses, bot ids and key; the registration and network fees are the documented ones for what it does; its coin inputs equal its fees plus the refund, which goes to the refund address.", "quantifier": "every wallet state and request", "why_tests_cant": "all wallet states and requests", "anchors": ["tfchain/TFChainWallet.py:TFChainThreeBot.record_new,record_update,name_transfer", "tfchain/TFChainWallet.py:TFChainERC20.address_register"]}
{"id": "C80", "title": "3Bot updates and transfers are refused when they cannot succeed", "statement": "An update or a name transfer is produced only for bots the explorer knows and that are still active (or being paid for), and only if it changes something.", "quantifier": "every request and every explorer answer", "why_tests_cant": "all requests and answers", "anchors": ["tfchain/TFChainWallet.py:TFChainThreeBot.record_update,name_transfer"]}
{"id": "C81", "title": "Minting does what was asked", "statement": "minter.coins_new and minter.definition_set produce a transaction creating exactly the given amount for the given recipient (setting exactly the given condition), with the given data, nonce and minimum fee, and to be signed for the current mint condition.", "quantifier": "every request", "why_tests_cant": "all requests", "anchors": ["tfchain/TFChainWallet.py:Minter.coins_new,definition_set"]}
{"id": "C82", "title": "Signing a transaction made elsewhere", "statement": "transaction_sign never changes what a transaction does, submits it only when asked and only if every signature is present and genuine, tells whether it added signatures and whether it submitted, and adds only genuine signatures of the wallet's own keys.", "quantifier": "every transaction, wallet state and explorer answer", "why_tests_cant": "all transactions at all stages of signing", "anchors": ["tfchain/TFChainWallet.py:TFChainWallet.transaction_sign"]}
{"id": "C83", "title": "A payment from own addresses is submitted", "statement": "A payment that is funded from the wallet's personal addresses only is always submitted when coins_send returns, and then leaves nothing to sign.", "quantifier": "every wallet state and payment", "why_tests_cant": "all wallet states", "anchors": ["tfchain/TFChainWallet.py:TFChainWallet.coins_send"]}
{"id": "C84", "title": "Consecutive payments do not double spend", "statement": "Two consecutive payments by the same wallet never spend the same output.", "quantifier": "every wallet and pair of payments", "why_tests_cant": "all histories", "anchors": ["tfchain/TFChainWallet.py:TFChainWallet.coins_send,balance"]}
{"id": "C85", "title": "An exception means nothing was submitted", "statement": "A wallet operation that raises has not submitted a transaction to the network.", "quantifier": "every operation and every explorer behaviour", "why_tests_cant": "all failure points", "anchors": ["tfchain/TFChainWallet.py:TFChainWallet.coins_send"]}
{"id": "C86", "title": "Returned outputs carry their ids", "statement": "Every output of a submitted transaction that belongs to the wallet is given the id under which the network knows it.", "quantifier": "every operation and transaction", "why_tests_cant": "all transactions", "anchors": ["tfchain/TFChainWallet.py:TFChainWallet.coins_send"]}
{"id": "C87", "title": "Amounts mean what the documentation says", "statement": "An amount given as text with a decimal point or a currency unit is taken as that number of TFT; given as a whole number it is taken as a number of smallest units.", "quantifier": "every amount", "why_tests_cant": "all texts and integers", "anchors": ["tfchain/types/PrimitiveTypes.py:Currency", "tfchain/TFChainWallet.py:TFChainWallet.coins_send"]}
{"id": "C88", "title": "The returned contract is the submitted one", "statement": "The contract returned by initiate and participate describes the first output of the returned transaction and carries the id under which the network knows that output, so that it can be given to the counterparty; the submitted flag says whether the transaction was submitted.", "quantifier": "every request and wallet state", "why_tests_cant": "all requests and states", "anchors": ["tfchain/TFChainWallet.py:TFChainAtomicSwap.initiate,participate"]}
{"id": "C89", "title": "verify accepts only matching contracts", "statement": "atomicswap.verify returns only for a contract that is unspent and has the given id, the given amount, the given secret hash, at least the given time left, and the asked for parties; otherwise it raises.", "quantifier": "every contract, request and chain time", "why_tests_cant": "all contracts and times", "anchors": ["tfchain/TFChainWallet.py:TFChainAtomicSwap.verify"]}
{"id": "C90", "title": "Contracts can be redeemed as documented", "statement": "The receiver of an unspent contract who knows the secret can redeem it; a contract created without a participator is free for all to redeem, as documented.", "quantifier": "every contract and wallet", "why_tests_cant": "all contracts and wallets", "anchors": ["tfchain/TFChainWallet.py:TFChainAtomicSwap.redeem,initiate,participate"]}
{"id": "C91", "title": "The secret of a submitted contract is returned", "statement": "When initiate has submitted a contract, it returns its secret (which exists nowhere else).", "quantifier": "every request and every explorer behaviour", "why_tests_cant": "all failure points", "anchors": ["tfchain/TFChainWallet.py:TFChainAtomicSwap.initiate"]}
{"id": "C92", "title": "No key of the seed is skipped", "statement": "Every key number below the wallet's key count is in the wallet or among the keys handed out next, after any history of scans and key requests.", "quantifier": "every usage pattern of addresses and every history", "why_tests_cant": "all usage patterns", "anchors": ["tfchain/TFChainWallet.py:TFChainWallet._key_scan,_key_pair_new"]}
{"id": "C93", "title": "Failover to a working explorer", "statement": "Explorer addresses are tried until one answers with 200 OK, as documented: a request succeeds if any of the configured explorers would answer it.", "quantifier": "every list of explorers and every pattern of failures", "why_tests_cant": "all failure patterns over unbounded address lists", "anchors": ["tfchain/TFChainExplorerClient.py:TFChainExplorerClient.get,post"]}
{"id": "C94", "title": "Transactions carry the explorer's annotations", "statement": "In a transaction read from an explorer every input knows the output it spends, every output carries the id the explorer lists for it, and the transaction is confirmed exactly if it has a height.", "quantifier": "every explorer answer", "why_tests_cant": "all well- and ill-formed answers", "anchors": ["tfchain/TFChainClient.py:TFChainClient._transaction_from_explorer_transaction"]}
{"id": "C95", "title": "Answers fit the question", "statement": "transaction_get, block_get and record_get return the transaction, block or 3Bot asked for, or raise.", "quantifier": "every explorer answer", "why_tests_cant": "all answers", "anchors": ["tfchain/TFChainClient.py:TFChainClient.transaction_get,block_get", "tfchain/TFChainClient.py:TFChainThreeBotClient.record_get"]}
{"id": "C96", "title": "The wallet's balance is complete", "statement": "wallet.balance holds exactly the unspent outputs in the histories of the wallet's addresses and of the multi-signature addresses they co-own, and it can always be computed.", "quantifier": "every wallet and every explorer answer", "why_tests_cant": "all histories of unboundedly many addresses", "anchors": ["tfchain/TFChainWallet.py:TFChainWallet.balance", "tfchain/TFChainClient.py:ExplorerUnlockhashResult.balance"]}
{"id": "C97", "title": "Block rewards are part of the balance", "statement": "Coins an address received as block reward are part of its balance.", "quantifier": "every explorer answer", "why_tests_cant": "all answers", "anchors": ["tfchain/TFChainClient.py:TFChainClient.unlockhash_get,ExplorerUnlockhashResult.balance"]}
{"id": "C98", "title": "The wallet's transactions are complete", "statement": "wallet.transactions returns the transactions in the histories of the wallet's addresses, each once, unconfirmed ones first and then by decreasing height, also if some addresses are unused.", "quantifier": "every wallet and every explorer answer", "why_tests_cant": "all histories of unboundedly many addresses", "anchors": ["tfchain/TFChainWallet.py:TFChainWallet.transactions"]}
{"id": "C99", "title": "Fitting transactions can be encoded, identified and signed", "statement": "A transaction whose fields fit the wire format (numbers in range, hashes, keys and signatures no longer than theirs, bounded list lengths) can be encoded, has an identifier, each of its coin outputs has one, and there are bytes to sign for every input and every key; none of these raise.", "quantifier": "every transaction of every version that fits the wire format", "why_tests_cant": "all transactions", "anchors": ["tfchain/types/transactions/Base.py:TransactionBaseClass.binary_encode,coin_outputid_new,signature_hash_get", "tfchain/types/transactions/Standard.py:TransactionV1"]}
{"id": "C100", "title": "Affordable payments go through", "statement": "If at most 99 outputs eligible for the source reach the amount plus fee and the arguments are legal, coins_send, the transaction builder, ERC20 coins_send and the atomic swap operations initiate and participate come to a transaction instead of raising; it is submitted exactly if the wallet has enough keys for every input, and returned unsubmitted for others to sign otherwise.", "quantifier": "every wallet state with legal outputs and keys, and every legal request", "why_tests_cant": "a liveness claim over all wallet states", "anchors": ["tfchain/TFChainWallet.py:TFChainWallet.coins_send,CoinTransactionBuilder.send", "tfchain/TFChainWallet.py:TFChainERC20.coins_send", "tfchain/TFChainWallet.py:TFChainAtomicSwap.initiate,participate"]}
{"id": "C101", "title": "Time locks given as text mean what is documented", "statement": "A lock or refund time given as '+' and a duration is the current time (for atomic swaps the chain time) plus that duration; given as a date, with or without a time of the day, it is that date; coins are locked until exactly then.", "quantifier": "every duration and date text", "why_tests_cant": "all texts of the documented forms", "anchors": ["tfchain/types/ConditionTypes.py:OutputLock", "tfchain/internal/jsutils.py:Duration,DateTime"]}
{"id": "C102", "title": "Chain facts are told as the explorers know them", "statement": "blockchain_info_get tells height, time and id of the explorer's last block; condition_get the mint condition of the explorer, now or at a height; erc20.address_get tells for every wallet address, given as object or text, exactly whether and how it is registered as ERC20 withdraw address, and refuses addresses of other kinds.", "quantifier": "every explorer answer of the documented form", "why_tests_cant": "all addresses, blocks, conditions and registrations", "anchors": ["tfchain/TFChainClient.py:TFChainClient.blockchain_info_get", "tfchain/TFChainClient.py:TFChainMinterClient.condition_get", "tfchain/TFChainClient.py:TFChainERC20Client.address_get"]}
{"id": "C103", "title": "A wallet tells exactly its own ERC20 registrations", "statement": "wallet.erc20.addresses_get lists the registrations of exactly those addresses of the wallet that are registered, in order; wallet.erc20.address_get answers for each own address however it is named, and refuses every wallet address the wallet does not own.", "quantifier": "every reachable wallet and every set of registrations", "why_tests_cant": "all key histories and registrations", "anchors": ["tfchain/TFChainWallet.py:TFChainERC20.address_get,addresses_get"]}
{"id": "C104", "title": "A returned result means a confirmed submission", "statement": "Every wallet operation hands at most one transaction to the network, and if it did and returns instead of raising, the explorers have confirmed that transaction.", "quantifier": "every operation, wallet state and explorer behaviour", "why_tests_cant": "all operations and all failure points", "anchors": ["tfchain/TFChainWallet.py:TFChainWallet._transaction_put,coins_send,transaction_sign", "tfchain/TFChainWallet.py:AtomicSwap,ThreeBot,ERC20,Minter", "tfchain/TFChainClient.py:TFChainClient.transaction_put"]}
{"id": "C105", "title": "Submitting a transaction reaches the network", "statement": "transaction_put hands the transaction to the first explorer that can be reached and returns the id that explorer gives it.", "quantifier": "every transaction and every behaviour of the explorers", "why_tests_cant": "all transactions and failure patterns", "anchors": ["tfchain/TFChainClient.py:TFChainClient.transaction_put", "tfchain/TFChainExplorerClient.py:TFChainExplorerClient.post", "tfchain/internal/jsutils.py:json_dumps"]}
{"id": "C106", "title": "A client is for the network it was asked for", "statement": "A client is for the network named when it was created (in small or capital letters), or that of the explorers it was given, or standard, and uses the explorers and the minimum fee of that network; a name that is no network's is refused.", "quantifier": "every name, network and set of explorers", "why_tests_cant": "all texts", "anchors": ["tfchain/TFChainClient.py:NetworkType,TFChainClient.__init__"]}
{"id": "C107", "title": "A balance counts exactly what was reported unspent", "statement": "After any history of reports a balance counts exactly the outputs reported unspent and never spent, as confirmed or unconfirmed as reported, apart for the personal addresses and every multi-signature wallet; it is active exactly if there are any; its addresses are those of the reported outputs; combining two balances is refused exactly if their chain states contradict each other.", "quantifier": "every history of reports and pair of balances", "why_tests_cant": "all histories", "anchors": ["tfchain/TFChainWallet.py:WalletBalance.output_add,active,addresses,balance_add", "tfchain/TFChainWallet.py:WalletsBalance.output_add,multisig_output_add"]}
{"id": "C108", "title": "A printed balance tells the exact amounts", "statement": "Printing a balance tells the chain state, the exact amounts in TFT available and locked, unconfirmed and being spent, and the same for every active multi-signature wallet with its address and owners.", "quantifier": "every balance", "why_tests_cant": "all amounts and sets of wallets", "anchors": ["tfchain/TFChainWallet.py:WalletBalance.__repr__,_human_readable_balance", "tfchain/TFChainWallet.py:MultiSigWalletBalance._human_readable_balance", "tfchain/TFChainWallet.py:WalletsBalance.__repr__"]}
{"id": "C109", "title": "Affordable 3Bot operations and registrations go through", "statement": "If the wallet can pay and the arguments are legal, record_new, record_update, name_transfer and address_register come to a transaction instead of raising; it is submitted exactly if the wallet has the keys for every input and of every party that has to sign, and returned unsubmitted for others to sign otherwise.", "quantifier": "every wallet state with legal outputs and keys, and every legal request", "why_tests_cant": "a liveness claim over all wallet states", "anchors": ["tfchain/TFChainWallet.py:TFChainThreeBot.record_new,record_update,name_transfer", "tfchain/TFChainWallet.py:TFChainERC20.address_register"]}
{"id": "C110", "title": "Minting goes through", "statement": "Given legal arguments minter.coins_new and minter.definition_set come to a transaction instead of raising; it is submitted exactly if the wallet has the keys required by the current mint condition, and returned unsubmitted for others to sign otherwise.", "quantifier": "every wallet, mint condition and legal request", "why_tests_cant": "a liveness claim over all wallets and conditions", "anchors": ["tfchain/TFChainWallet.py:Minter.coins_new,definition_set"]}
{"id": "C111", "title": "Transactions have the network's wire format", "statement": "The binary encoding of a transaction, the bytes its identifier and its outputs' identifiers are hashes of, and the bytes signed for each of its inputs and by each of its parties are, byte by byte, the ones of the network's documented layout.", "quantifier": "every transaction of every version, current and legacy, with contents the setters let in and at most 15 names and addresses in 3Bot lists", "why_tests_cant": "all transactions of unbounded contents", "anchors": ["tfchain/types/transactions/*.py:_binary_encode_data,_signature_hash_input_get,binary_encode", "tfchain/types/transactions/Base.py:TransactionBaseClass.coin_outputid_new,blockstake_outputid_new,_outputid_new", "tfchain/types/IO.py", "tfchain/types/ConditionTypes.py", "tfchain/types/FulfillmentTypes.py", "tfchain/encoders"]}
{"id": "C112", "title": "Legacy transactions are read as they are", "statement": "A legacy (version 0) transaction in the JSON form of the network is read as a legacy transaction with exactly these inputs, outputs, fees and data, in order, whatever empty lists are left out, and is encoded and identified by the network's bytes of these.", "quantifier": "every legacy transaction with amounts below 10^28 smallest units", "why_tests_cant": "all transactions of unbounded contents", "anchors": ["tfchain/types/transactions/Standard.py:TransactionV1.from_json,legacy_from_json"]}
{"id": "C113", "title": "A transaction asks exactly for the signatures it lacks", "statement": "signature_requests_new asks, for the coin inputs in order, then the blockstake inputs, then minters and parties, exactly the addresses whose signatures are missing; a request that is fulfilled is not asked again and all others still are; when nothing is asked the transaction is fulfilled, and then nothing is asked.", "quantifier": "every transaction of every version, at every stage of signing", "why_tests_cant": "all conditions, owners and orders of signing", "anchors": ["tfchain/types/transactions/Base.py:TransactionBaseClass.signature_requests_new", "tfchain/types/FulfillmentTypes.py:signature_requests_new", "tfchain/types/IO.py:CoinInput.signature_requests_new,BlockstakeInput.signature_requests_new", "tfchain/types/transactions/*.py:_extra_signature_requests_new"]}
{"id": "C114", "title": "Transactions are separate objects", "statement": "What is done to one transaction - assigning its inputs, adding inputs, entering signatures - never shows in another one.", "quantifier": "every program over any number of transactions: any order of making, assigning, adding and signing", "why_tests_cant": "all interleavings over all object graphs", "anchors": ["tfchain/types/transactions/Standard.py:TransactionV1.coin_inputs,coin_input_add", "tfchain/types/transactions/ThreeBot.py:coin_inputs", "tfchain/types/transactions/ERC20.py:coin_inputs", "tfchain/types/IO.py:CoinInput.fulfillment", "tfchain/types/FulfillmentTypes.py:signature_add"]}
{"id": "C115", "title": "A transaction shows what was assigned to it", "statement": "After any sequence of assignments to the properties of a new transaction of any class, every property shows the value of the last assignment to it that was not refused (its initial value if there was none), no assignment affects another property, a refused assignment changes nothing, and exactly the assignments in range are accepted: months 1 to 24 for a registration and 0 to 24 for an update, bot identifiers from 1 on, at most one refund output, a registration fee of 10 TFT only, keys, conditions and fulfillments of the right type, identifiers of the right length, at most 83 bytes of data. The fees paid are those of the last fee.", "quantifier": "every class of transactions, every property, every sequence of assignments of values of any kind", "why_tests_cant": "unbounded histories over all classes, properties and values", "anchors": ["tfchain/types/transactions/ThreeBot.py:TransactionV144,TransactionV145,TransactionV146 setters", "tfchain/types/transactions/ERC20.py:TransactionV208,TransactionV209,TransactionV210 setters", "tfchain/types/transactions/Minting.py:TransactionV128,TransactionV129 setters", "tfchain/types/transactions/Standard.py:TransactionV1.data,coin_outputs"]}
{"id": "C116", "title": "Amounts in payments do not change afterwards", "statement": "What a program does to an amount after it handed it to a payment does not change the payment: outputs and miner fees are what they were when they were added, and two payments, one of which was given the outputs of the other, stay independent.", "quantifier": "every program of any length that makes amounts, computes with them in place (+=, -=, *=), makes payments, adds outputs and fees and copies outputs between payments", "why_tests_cant": "unbounded histories; aliasing shows only in particular interleavings", "anchors": ["tfchain/types/PrimitiveTypes.py:Currency.__iadd__,__isub__,__imul__", "tfchain/types/IO.py:CoinOutput.value", "tfchain/types/transactions/Standard.py:TransactionV1.coin_output_add,miner_fee_add,coin_outputs"]}
{"id": "C117", "title": "Atomic swap contracts compare and read as what they are", "statement": "Two contracts are equal exactly when identifier, amount, parties, secret hash, refund time and spent state are the same, and comparing never raises. The description of a contract names all of these; it says that a refund is available exactly when the refund time has come, in agreement with what the refund operation allows at that time, and otherwise in how many seconds that will be.", "quantifier": "all contracts with real identifiers, addresses and secret hashes, all amounts and all times", "why_tests_cant": "ranges over all contracts, amounts and points in time, boundaries included", "anchors": ["tfchain/types/AtomicSwap.py:AtomicSwapContract.__eq__,__ne__,__repr__", "tfchain/TFChainWallet.py:TFChainAtomicSwap.refund"]}
{"id": "C118", "title": "Values compare as what they are", "statement": "Comparing two amounts answers as the order of their numbers of smallest units, whatever decimal forms they are written in; comparing with a whole number or a text answers as for the amount it makes. Binary data and identifiers equal exactly the text and bytes they stand for, data of another size or encoding is refused; equal identifiers and equal addresses are the same dictionary key, different ones are not; != is always the opposite of ==; comparing with anything else answers that it is different.", "quantifier": "all legal amounts, all binary data of any size and encoding, all addresses, all six operators and all operands", "why_tests_cant": "ranges over all pairs of amounts in all decimal forms and all byte strings", "anchors": ["tfchain/types/PrimitiveTypes.py:Currency.__lt__,__le__,__eq__,__ne__,__gt__,__ge__", "tfchain/types/PrimitiveTypes.py:BinaryData.__eq__,__ne__,__hash__", "tfchain/types/ConditionTypes.py:UnlockHash.__eq__,__ne__,__hash__"]}
{"id": "C119", "title": "Changing one balance leaves the others alone", "statement": "Adding an output, merging another balance in, or setting the chain context changes the balance it is called on as that operation says and no other balance: neither the balances merged into it before, nor those it was merged into, nor a block identifier read from a balance earlier.", "quantifier": "all programs that make balances of the three classes, add outputs, merge balances with each other in any order (themselves included) and set their chain contexts; all balances and all later calls", "why_tests_cant": "ranges over all histories of calls on shared objects", "anchors": ["tfchain/TFChainWallet.py:WalletBalance.output_add,balance_add,_base,chain_blockid,chain_time,chain_height", "tfchain/TFChainWallet.py:MultiSigWalletBalance.balance_add", "tfchain/TFChainWallet.py:WalletsBalance.output_add,balance_add,_merge_multisig_wallet_balance"]}
{"id": "C120", "title": "What a wallet submits is valid on the chain", "statement": "Whatever the chain holds, if the explorers describe it truthfully then every transaction a wallet submits when it pays or claims a swap is one the network can accept: its inputs name different outputs, each of which exists on the chain, is unspent, is no longer time-locked, is under no swap contract and has a condition the input fulfills (a claim spends one contract instead, as its receiver with the secret or as its sender after the refund time); they are worth exactly what the transaction pays out, charges and gives as the one miner fee; every output is worth something; and all signatures are there.", "quantifier": "all lawful chains (any number of transactions), all wallets with any number of addresses and shared wallets, all truthful explorers, all ways to pay (coins, several recipients, ERC20 withdrawal and registration, 3Bot registration, update and name transfer, and atomic swaps: initiate, participate, redeem, refund) with any arguments, sources and refund addresses", "why_tests_cant": "ranges over all chains and all answers of explorers, end to end through balance, funding, building and signing", "anchors": ["tfchain/TFChainWallet.py:TFChainWallet.balance,coins_send,CoinTransactionBuilder.send,TFChainERC20.coins_send,address_register,TFChainThreeBot.record_new,record_update,name_transfer,WalletsBalance.fund", "tfchain/TFChainClient.py:TFChainClient.unlockhash_get,ExplorerUnlockhashResult.balance"]}
{"id": "C121", "title": "Coins are neither made nor lost, nor spent twice", "statement": "However many wallets pay and create, redeem and refund swap contracts in whatever order on one chain, each told the truth about the chain as it is at that moment: the chain stays lawful, what the unspent outputs are worth altogether shrinks by exactly the miner fees and the charges of what is submitted, no two transactions ever spend the same output, and an output of an address none of the paying wallets has stays unspent.", "quantifier": "all lawful chains, all wallets, all sequences of any length of payments (any kind, arguments, sources, refund addresses), of creating, redeeming and refunding swap contracts, and of time passing, all ways in which the network lists what it takes (fresh ids)", "why_tests_cant": "ranges over all histories of a network of wallets, by induction over what happens", "anchors": ["tfchain/TFChainWallet.py:TFChainWallet.balance,coins_send,CoinTransactionBuilder.send,TFChainERC20.coins_send,address_register,TFChainThreeBot.record_new,record_update,name_transfer,TFChainAtomicSwap.initiate,participate,redeem,refund,WalletsBalance.fund", "tfchain/TFChainClient.py:TFChainClient.unlockhash_get,coin_output_get"]}
{"id": "C122", "title": "JSON texts are read as what they stand for", "statement": "A text is read as a value exactly when it is a JSON text (RFC 8259) of that value, whatever its layout, escapes and repeated members (the last of a name counts); a text has one value at most; what the library writes is a JSON text of what it was given, so reading it gives that back; a transaction given as text or posted as a dict is thereby the one meant; and the answer of an explorer is understood however it is laid out.", "quantifier": "all texts and bytes, all JSON values of any size and nesting, all layouts of answers", "why_tests_cant": "ranges over all texts; a parser and a printer are compared with the grammar by induction", "anchors": ["tfchain/internal/jsutils.py:json_dumps,json_loads,BytesEncoder", "tfchain/types/transactions/Transactions.py:from_json", "tfchain/TFChainExplorerClient.py:TFChainExplorerClient.get,post", "tfchain/TFChainClient.py:TFChainClient.transaction_put"]}
{"id": "C123", "title": "A wallet can be recovered from its words", "statement": "Every wallet tells its words, which are the standard (BIP39) words of its seed; words are accepted exactly when they are the words of a seed; different seeds have different words; and a wallet made from the words of another is the same wallet, whatever happened to that one in between.", "quantifier": "all seeds of all sizes, all texts, all word lists of 2048 different words, all ways of making a wallet, all histories of a wallet's keys", "why_tests_cant": "ranges over all seeds and all texts; a test sees a few phrases", "anchors": ["tfchain/TFChainWallet.py:TFChainWallet.__init__,TFChainWallet.seed,TFChainWallet.mnemonic,TFChainWallet._key_pair_new"]}
{"id": "C124", "title": "An error says what it is about", "statement": "When an operation on an atomic swap contract, a 3Bot, an address or an explorer is refused, the exception carries what the caller needs to know: the identifier, contract, amount, address, endpoint or data that was refused, as given and as the explorers told it, and the reason the exception stands for is really there.", "quantifier": "all wallets, all answers of the explorers, all arguments of redeem, refund, verify, initiate, participate, record_get, record_update, name_transfer, address_register, address_get, get and post", "why_tests_cant": "an exception is raised in states that a test does not reach; the claim ranges over all of them", "anchors": ["tfchain/errors.py:AtomicSwapContractNotFound,AtomicSwapContractSpent,AtomicSwapContractInvalid,AtomicSwapForbidden,AtomicSwapInvalidSecret,AtomicSwapInsufficientAmountError,ThreeBotNotFound,ThreeBotInactive,AddressNotInWallet,ERC20RegistrationForbidden,ExplorerError,ExplorerServerPostError,ExplorerNotAvailable", "tfchain/TFChainWallet.py:TFChainAtomicSwap.verify,TFChainAtomicSwap.redeem,TFChainAtomicSwap.refund,TFChainThreeBot.record_update,TFChainThreeBot.name_transfer,TFChainERC20.address_register", "tfchain/TFChainExplorerClient.py:TFChainExplorerClient.get,TFChainExplorerClient.post"]}
{"id": "C125", "title": "A text means exactly the amount it says", "statement": "A text is accepted as an amount of money exactly when it is a number of TFT, written with any digits, underscores, exponent, blanks around it and the unit TFT in any case, that is not marked negative and has at most nine decimals as written; it then is that amount and no other. Every other text is refused. An amount in a JSON object is read the same way as a number of smallest units, without unit and without decimals.", "quantifier": "all texts", "why_tests_cant": "texts are unbounded, and a parser that accepts one text too many, or misreads one, moves money", "anchors": ["tfchain/types/PrimitiveTypes.py:Currency.value,Currency.from_json,Currency.__init__"]}
{"id": "C126", "title": "A shared payment is submitted once enough owners have signed", "statement": "A payment (or a conversion to ERC20 coins) that spends outputs of several owners is handed, as JSON, from owner to owner, each of whom lets transaction_sign of his wallet add what it can. After any number of hands it is still the same payment and each input carries exactly one valid signature of every owner who has had it. The first wallet that completes the signatures required for all inputs submits it, and none before does.", "quantifier": "all payments, groups of owners, wallets, orders in which the payment goes round and numbers of required signatures", "why_tests_cant": "the number of owners, of inputs and of hands is unbounded, and one signature lost on the way through JSON, made twice or counted for the wrong owner blocks the coins or spends them too early", "anchors": ["tfchain/TFChainWallet.py:TFChainWallet.transaction_sign", "tfchain/types/FulfillmentTypes.py:FulfillmentMultiSignature,SignatureRequest", "tfchain/types/IO.py:CoinInput.signature_requests_new,CoinInput.is_fulfilled", "tfchain/types/transactions/Base.py:TransactionBaseClass.is_fulfilled"]}
{"id": "C127", "title": "JSON is read as exactly what it says", "statement": "Reading an address, a public key, a condition, a fulfillment, a coin or block stake input or output, or a transaction of any version from JSON succeeds exactly when the JSON value says one, field by field, and gives this one and no other: nothing in it is guessed, dropped or taken from elsewhere, and every JSON value that does not say one is refused. A missing list or field is empty or has its documented default; everything else is required.", "quantifier": "all JSON values and all objects", "why_tests_cant": "the JSON values are unbounded in size and depth, and an object read from malformed or incomplete JSON that is not refused is signed, spent or shown as if it had been meant", "anchors": ["tfchain/types/ConditionTypes.py:from_json,UnlockHash.from_json", "tfchain/types/FulfillmentTypes.py:from_json", "tfchain/types/CryptoTypes.py:PublicKey.from_json", "tfchain/types/IO.py:CoinInput.from_json,CoinOutput.from_json,BlockstakeInput.from_json,BlockstakeOutput.from_json", "tfchain/types/transactions/Transactions.py:from_json", "tfchain/types/transactions/Standard.py:TransactionV1.from_json,TransactionV1.legacy_from_json", "tfchain/types/transactions/Minting.py:_from_json_data_object", "tfchain/types/transactions/ThreeBot.py:_from_json_data_object", "tfchain/types/transactions/ERC20.py:_from_json_data_object"]}
{"id": "C128", "title": "A network address is a host name or an IP address", "statement": "Setting a network address of a 3Bot to a text succeeds exactly when the text is a host name of two or three parts of the documented form and at most 63 characters, or an IP address; it is then this host name or this IP address, an IPv4 address also when it was given as the IPv6 address it is mapped to. A number is accepted exactly when it is the number of an IPv4 or IPv6 address. Everything else is refused.", "quantifier": "all texts and all numbers", "why_tests_cant": "the accepted texts are an infinite language given by a regular expression with nested repetitions, and an address accepted that is none is written to the chain, where it cannot be taken back without a fee", "anchors": ["tfchain/types/ThreeBot.py:NetworkAddress.__init__,NetworkAddress.value,NetworkAddress.HOSTNAME_REGEXP,NetworkAddress.HOSTNAME_LENGTH_MAX"]}
{"id": "C129", "title": "IP addresses are read and written as published", "statement": "A text is taken for an IP address exactly when it is one by the published grammar (four decimal numbers up to 255 without leading zeros; eight groups of one to four hexadecimal digits, at most one double colon for missing zero groups, the last two groups possibly written as an IPv4 address, possibly a scope id), and then for that address. The text a bot record or transaction shows for an address is its canonical form, and reads back as the same address; no IP address is mistaken for a host name.", "quantifier": "all texts, all IPv4 and IPv6 addresses, whatever a network address is made of", "why_tests_cant": "2^128 addresses, each with many notations, and a run of zeros whose position and length decide the text", "anchors": ["tfchain/types/ThreeBot.py:NetworkAddress.__init__,NetworkAddress.value,NetworkAddress.__str__,NetworkAddress.json,NetworkAddress.from_json"]}
{"id": "C130", "title": "Dates mean moments of the calendar", "statement": "A lock given as a date, in any of the documented notations and with or without a time of the day, is the timestamp of exactly that moment of the Gregorian calendar in the local time zone (years of two digits lie between 1969 and 2068, 12am is midnight, a missing year is the current one); a text that means no moment that exists, such as the 29th of February of a common year, is refused with a ValueError. A lock given as a minus sign, a whole number and a unit is that long ago; dates written with minus signs are refused. The text in which a lock shows its timestamp is read back as the same timestamp, unless the local clock shows that text twice.", "quantifier": "all days and times in all notations, all time zones, all clocks, all timestamps in the years 1000 to 9999", "why_tests_cant": "leap years, the lengths of months, the notations and the regular expressions behind them combine to far more dates than can be tried, and the current year and time zone differ from run to run", "anchors": ["tfchain/internal/jsutils.py:DateTime.clean,Time_.getEpochDeltaTime,Time_.getDeltaTime,Time_.formatTime,Time_.epoch2HRDateTime", "tfchain/types/ConditionTypes.py:OutputLock.__init__,OutputLock.__str__"]}
{"id": "C131", "title": "Numbers with a decimal point in durations", "statement": "A duration whose numbers have decimal points, such as '1.5h' or '2d.5h10.25s', is read as the number of seconds it stands for: exactly if that is a whole number of microseconds (fractions of a second are then dropped), and otherwise at most one second more, and only if it is less than a microsecond short of that. Nothing else is accepted. Up to 10^9 days a duration is never off by more than 1.02 seconds. Coins locked with such a duration are locked for that long. A lock that is a number and a unit ago is off by less than 1.001 seconds.", "quantifier": "all texts, and all durations below 2^51 microseconds (71 years); with the wider margin, all below 10^9 days; times ago below 2^40 seconds", "why_tests_cant": "binary fractions are rounded at each of seven steps, for every unit and every number of digits; which texts are hit by that cannot be told from samples", "anchors": ["tfchain/internal/jsutils.py:Duration.clean,Time_.getDeltaTime", "tfchain/types/ConditionTypes.py:OutputLock.__init__"]}
{"id": "C132", "title": "Locks given as timedelta or datetime objects", "statement": "Coins locked with a timedelta object are locked for its whole seconds from now (or, if it is negative, before now), the same as with the duration written as text. Coins locked with a datetime object are locked until the timestamp at which the clock shows it, the microseconds dropped: the local clock for an object without a time zone, and the object's own time zone otherwise. If the clock is set back and shows a time twice, the first of the two counts, or the second one if fold is set; a time the clock skips is counted by the clock as it was before. A date given as text and its datetime give the same lock if the clock shows it once.", "quantifier": "all timedelta objects below 2^53 microseconds, all datetime objects until the year 2106, all time zones whose clock changes at most once in the three days before and after", "why_tests_cant": "whole seconds are taken from rounded binary fractions, and the hours around a change of the clock take another path; a sample touches few of them", "anchors": ["tfchain/types/ConditionTypes.py:OutputLock.__init__"]}
{"id": "C133", "title": "Requests reach the explorer they are meant for", "statement": "A request for an endpoint goes to the host and port in the explorer's address, over http or https as the address says, for the path in the address followed by the endpoint: nothing is added, dropped, escaped or reordered, so that requests for different things are different. Blocks, transactions, outputs, addresses, mint conditions, the state of the chain, ERC20 registrations and 3Bots are asked for at endpoints for which this holds, and transactions are posted to such an endpoint. With an address that lacks http:// or https:// every request raises ValueError, whatever other explorers there are.", "quantifier": "all explorer addresses of the form http(s)://host[:port]/path with a host name or an IPv6 address in brackets, all endpoints of visible characters other than those that begin a query, a fragment or parameters, all blocks, ids, addresses, heights, 3Bot numbers, names and keys", "why_tests_cant": "URLs are taken apart and put together again three times, each time by rules with many special cases; a sample of addresses says nothing about the others", "anchors": ["tfchain/internal/HttpClient.py:Connection._updateUrlParams,_http_request", "tfchain/TFChainExplorerClient.py:TFChainExplorerClient.get,post", "tfchain/TFChainClient.py:TFChainClient.block_get,transaction_get,unlockhash_get"]}
{"id": "C134", "title": "A wallet spends only what it has the keys for", "statement": "Whatever a wallet submits, when it pays, makes or claims a swap contract, mints, registers an ERC20 address or manages 3Bots and names, is signed with keys of the wallet only (the one it makes during the operation included), and every output it spends is one the wallet has the keys for: the key of the owner, of as many owners as signatures are required, or of a party of the contract. No operation makes use of other private keys. So, however many wallets act as in C121 (in whatever order on a chain about which explorers tell the truth, untouched by ERC20 withdrawals and mint definitions), an unspent output for which none of them has the keys stays unspent.", "quantifier": "all wallets and keys, all answers of explorers, all arguments of the operations, all conditions of outputs; for the last claim all lawful chains and all runs", "why_tests_cant": "a test spends what its wallet owns; that nothing else can be spent, whatever explorers report, is a claim about all answers and all conditions", "anchors": ["tfchain/TFChainWallet.py:TFChainWallet.transaction_sign,key_pair_get", "tfchain/TFChainWallet.py:TFChainWallet.coins_send,coins_new", "tfchain/types/ConditionTypes.py"]}
{"id": "C135", "title": "What is paid arrives, and balances show what the chain holds", "statement": "A wallet told the truth shows, available and locked coins together, exactly what its addresses own on the chain, and each multi-signature wallet in the balance shows what its address owns. When the network takes a transaction a wallet submitted, other personal addresses own more by exactly what it pays to them, and for an ordinary payment the payer's own addresses own less by exactly what went to others plus the fee. So after a payment of v to another wallet and a fee f, that wallet is shown exactly v more than before, and the payer exactly v + f less.", "quantifier": "all wallets, chains, truthful explorers, recipients, amounts, locks and data; every paying operation for the general statements", "why_tests_cant": "a test pays once and looks at one balance; that no coins are lost or shown twice for any history, split of outputs, change and locks is a claim about all chains", "anchors": ["tfchain/TFChainWallet.py:TFChainWallet.balance,coins_send", "tfchain/TFChainWallet.py:WalletBalance,MultiSigWalletBalance,WalletsBalance", "tfchain/TFChainClient.py:TFChainClient.unlockhash_get"]}
{"id": "C136", "title": "What a wallet owns it can spend", "statement": "A wallet told the truth that has the keys of its addresses can pay whatever its addresses own on the chain, once time locks have passed: if at most 99 unspent outputs at its addresses reach the amount and the fee, coins_send with a legal recipient, amount, lock and data submits a transaction, the transaction pays the recipient what was asked, is one the network asks for, and any such chain can take it. The same holds of what a multi-signature address owns that the history of an own address mentions, if the wallet has as many owner keys as signatures are required. The same holds, too, for what is to be paid by a transaction builder, erc20.send, erc20.address_register of a key the wallet has, threebot.record_new with such a key, and threebot.record_update and threebot.name_transfer for 3Bots whose keys the wallet has.", "quantifier": "all wallets, chains, truthful explorers, sets of owned outputs, recipients, amounts, locks and data", "why_tests_cant": "a test spends the few coins of its set-up; that no coins get stuck, whatever mix of outputs, locks, histories and earlier payments the chain holds, is a claim about all chains", "anchors": ["tfchain/TFChainWallet.py:TFChainWallet.coins_send,balance,coin_transaction_builder_new", "tfchain/TFChainWallet.py:TFChainThreeBot.record_new,record_update,name_transfer", "tfchain/TFChainWallet.py:TFChainERC20.send,address_register", "tfchain/TFChainWallet.py:WalletsBalance.fund,_fund_individual,_fund_multisig", "tfchain/TFChainClient.py:TFChainClient.unlockhash_get"]}
{"id": "C137", "title": "What is put into a contract can be taken out, once", "statement": "For an atomic swap contract of the chain that is worth more than the miner fee and that explorers list as unspent: a wallet with the key of its receiver and the secret of 32 bytes takes it out with redeem, and a wallet with the key of its sender takes it out with refund once its lock time has passed. The one transaction that is submitted spends the contract, pays all it holds but the fee to the receiver or to the sender, is one the network asks for, and the chain can take it, whatever new id the output gets. Once it has, there is an unspent output with that payment, and no wallet that is told the truth submits a further transaction for the contract.", "quantifier": "all wallets, chains, truthful explorers, contracts, secrets, data and later chains", "why_tests_cant": "a test claims one contract that it set up itself; that no contract gets stuck and none is paid out twice, whoever asks and in whatever order, is a claim about all chains and wallets", "anchors": ["tfchain/TFChainWallet.py:TFChainAtomicSwap.verify,redeem,refund,_claim_contract", "tfchain/TFChainClient.py:TFChainClient.coin_output_get"]}
{"id": "C138", "title": "A swap completes or is undone, and is atomic", "statement": "A wallet told the truth whose addresses own the amount and the fee in at most 99 unspent outputs can create a contract with any legal recipient, secret (or hash), time and data, if the amount exceeds the miner fee: initiate or participate submits one transaction the network asks for and the chain can take, and returns the contract unless the network does not confirm it. A contract that initiate or participate submits and returns is, once the chain has taken the transaction and the network has named its outputs, an unspent output of the chain under the very identifier that was returned; it holds the amount asked for, for the recipient, under the hash (of the secret) and until the time asked for. From then on, on any later chain that lists it as unspent, a wallet with the recipient's key and a secret of 32 bytes with that hash redeems all of it but the fee, and once the time has passed a wallet with the sender's key gets it back. Whoever redeems a contract reveals the secret in the transaction: with it, the receiver of any other contract under the same hash redeems that one.", "quantifier": "all wallets, chains, truthful explorers, contracts, secrets, amounts, times and later chains", "why_tests_cant": "a test plays one swap through; that no party loses its coins whatever the other does, and that the identifier returned is the one with which the contract is found, is a claim about all wallets and chains", "anchors": ["tfchain/TFChainWallet.py:TFChainAtomicSwap.initiate,participate,redeem,refund,_create_contract,_claim_contract", "tfchain/TFChainClient.py:TFChainClient.coin_output_get"]}
