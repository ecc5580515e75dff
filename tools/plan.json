{
 "C01": [
  "Encoders",
  "independent decoders of the wire formats (Spec/Encoding); induction on value lists"
 ],
 "C02": [
  "Encoders",
  "independent decoders of the wire formats (Spec/Encoding); induction on value lists"
 ],
 "C03": [
  "Encoders",
  "independent decoders of the wire formats (Spec/Encoding); induction on value lists"
 ],
 "C04": [
  "Encoders",
  "independent decoders of the wire formats (Spec/Encoding); induction on value lists"
 ],
 "C05": [
  "Encoders",
  "independent decoders of the wire formats (Spec/Encoding); induction on value lists"
 ],
 "C06": [
  "Encoders",
  "independent decoders of the wire formats (Spec/Encoding); induction on value lists"
 ],
 "C07": [
  "Merkle",
  "invariant of the stack of subtrees against a recursively defined root (Spec/Merkle); induction on pushes"
 ],
 "C08": [
  "Merkle",
  "invariant of the stack of subtrees against a recursively defined root (Spec/Merkle); induction on pushes"
 ],
 "C09": [
  "Merkle",
  "invariant of the stack of subtrees against a recursively defined root (Spec/Merkle); induction on pushes"
 ],
 "C10": [
  "Primitive, Text",
  "hexadecimal and base64 decoding inverts encoding; induction on operation histories"
 ],
 "C11": [
  "Primitive, Text",
  "hexadecimal and base64 decoding inverts encoding; induction on operation histories"
 ],
 "C12": [
  "Primitive, Text",
  "hexadecimal and base64 decoding inverts encoding; induction on operation histories"
 ],
 "C13": [
  "Primitive, Text",
  "hexadecimal and base64 decoding inverts encoding; induction on operation histories"
 ],
 "C14": [
  "Primitive, Text",
  "hexadecimal and base64 decoding inverts encoding; induction on operation histories"
 ],
 "C15": [
  "Decimal, Primitive",
  "algebra on (sign, coefficient, exponent) with 28-digit half-even rounding, against numbers of smallest units (Spec/Amount)"
 ],
 "C16": [
  "Decimal, Primitive",
  "algebra on (sign, coefficient, exponent) with 28-digit half-even rounding, against numbers of smallest units (Spec/Amount)"
 ],
 "C17": [
  "Decimal, Primitive",
  "algebra on (sign, coefficient, exponent) with 28-digit half-even rounding, against numbers of smallest units (Spec/Amount)"
 ],
 "C18": [
  "Decimal, Primitive",
  "algebra on (sign, coefficient, exponent) with 28-digit half-even rounding, against numbers of smallest units (Spec/Amount)"
 ],
 "C19": [
  "Decimal, Primitive",
  "algebra on (sign, coefficient, exponent) with 28-digit half-even rounding, against numbers of smallest units (Spec/Amount)"
 ],
 "C20": [
  "Primitive, Stakes",
  "Python's grammar for whole numbers (Spec/Stakes) against the scanner, by induction on the text; algebra for the rest"
 ],
 "C21": [
  "Crypto, Conditions, Text",
  "round trips of texts, exact sets of accepted texts (Spec/Address)"
 ],
 "C22": [
  "Crypto, Conditions, Text",
  "round trips of texts, exact sets of accepted texts (Spec/Address)"
 ],
 "C23": [
  "Crypto, Conditions, Text",
  "round trips of texts, exact sets of accepted texts (Spec/Address)"
 ],
 "C24": [
  "Crypto, Conditions, Text",
  "round trips of texts, exact sets of accepted texts (Spec/Address)"
 ],
 "C25": [
  "Conditions, Json",
  "prefix-free decoding of encodings, permutation invariance of sorting, JSON round trips by cases and induction on nesting"
 ],
 "C26": [
  "Conditions, Json",
  "prefix-free decoding of encodings, permutation invariance of sorting, JSON round trips by cases and induction on nesting"
 ],
 "C27": [
  "Conditions, Json",
  "prefix-free decoding of encodings, permutation invariance of sorting, JSON round trips by cases and induction on nesting"
 ],
 "C28": [
  "Conditions, Json",
  "prefix-free decoding of encodings, permutation invariance of sorting, JSON round trips by cases and induction on nesting"
 ],
 "C29": [
  "Conditions, Json",
  "prefix-free decoding of encodings, permutation invariance of sorting, JSON round trips by cases and induction on nesting"
 ],
 "C30": [
  "Conditions, Json",
  "prefix-free decoding of encodings, permutation invariance of sorting, JSON round trips by cases and induction on nesting"
 ],
 "C31": [
  "Fulfillments, IO, Json",
  "state machines of fulfillments; invariants over operation lists (Spec/Signing); JSON round trips"
 ],
 "C32": [
  "Fulfillments, IO, Json",
  "state machines of fulfillments; invariants over operation lists (Spec/Signing); JSON round trips"
 ],
 "C33": [
  "Fulfillments, IO, Json",
  "state machines of fulfillments; invariants over operation lists (Spec/Signing); JSON round trips"
 ],
 "C34": [
  "Fulfillments, IO, Json",
  "state machines of fulfillments; invariants over operation lists (Spec/Signing); JSON round trips"
 ],
 "C35": [
  "Fulfillments, IO, Json",
  "state machines of fulfillments; invariants over operation lists (Spec/Signing); JSON round trips"
 ],
 "C36": [
  "Fulfillments, IO, Json",
  "state machines of fulfillments; invariants over operation lists (Spec/Signing); JSON round trips"
 ],
 "C37": [
  "Transactions, TxJson, TxBuild",
  "functions of a transaction without its fulfillments; decoders of preimages (Spec/TxSpec); packed counts by arithmetic"
 ],
 "C38": [
  "Transactions, TxJson, TxBuild",
  "functions of a transaction without its fulfillments; decoders of preimages (Spec/TxSpec); packed counts by arithmetic"
 ],
 "C39": [
  "Transactions, TxJson, TxBuild",
  "functions of a transaction without its fulfillments; decoders of preimages (Spec/TxSpec); packed counts by arithmetic"
 ],
 "C40": [
  "Transactions, TxJson, TxBuild",
  "functions of a transaction without its fulfillments; decoders of preimages (Spec/TxSpec); packed counts by arithmetic"
 ],
 "C41": [
  "Transactions, TxJson, TxBuild",
  "functions of a transaction without its fulfillments; decoders of preimages (Spec/TxSpec); packed counts by arithmetic"
 ],
 "C42": [
  "Transactions, TxJson, TxBuild",
  "functions of a transaction without its fulfillments; decoders of preimages (Spec/TxSpec); packed counts by arithmetic"
 ],
 "C43": [
  "Transactions, TxJson, TxBuild",
  "functions of a transaction without its fulfillments; decoders of preimages (Spec/TxSpec); packed counts by arithmetic"
 ],
 "C44": [
  "Transactions, TxJson, TxBuild",
  "functions of a transaction without its fulfillments; decoders of preimages (Spec/TxSpec); packed counts by arithmetic"
 ],
 "C45": [
  "Transactions, TxJson, TxBuild",
  "functions of a transaction without its fulfillments; decoders of preimages (Spec/TxSpec); packed counts by arithmetic"
 ],
 "C46": [
  "Transactions, TxJson, TxBuild",
  "functions of a transaction without its fulfillments; decoders of preimages (Spec/TxSpec); packed counts by arithmetic"
 ],
 "C47": [
  "Transactions, TxJson, TxBuild",
  "functions of a transaction without its fulfillments; decoders of preimages (Spec/TxSpec); packed counts by arithmetic"
 ],
 "C48": [
  "Balance",
  "invariants over histories of output_add and balance_add"
 ],
 "C49": [
  "Balance",
  "invariants over histories of output_add and balance_add"
 ],
 "C50": [
  "Balance",
  "invariants over histories of output_add and balance_add"
 ],
 "C51": [
  "Balance",
  "loop invariants of fund (Lemmas/Fund, FundTotal)"
 ],
 "C52": [
  "Balance",
  "loop invariants of fund (Lemmas/Fund, FundTotal)"
 ],
 "C53": [
  "Balance",
  "loop invariants of fund (Lemmas/Fund, FundTotal)"
 ],
 "C54": [
  "Balance",
  "loop invariants of fund (Lemmas/Fund, FundTotal)"
 ],
 "C55": [
  "Balance",
  "induction on the drain loop"
 ],
 "C56": [
  "Wallet",
  "inversion of every operation to the funding and the created outputs (Spec/Payment)"
 ],
 "C57": [
  "Wallet, WalletOps, Fulfillments",
  "invariant of the signing loop (Lemmas/WalletSign); case analysis of outcomes"
 ],
 "C58": [
  "Keys",
  "invariant of scans, termination measure; injectivity of the derivation preimage"
 ],
 "C59": [
  "Keys",
  "invariant of scans, termination measure; injectivity of the derivation preimage"
 ],
 "C92": [
  "Keys",
  "invariant and counterexample history"
 ],
 "C60": [
  "Explorer",
  "induction on the list of addresses"
 ],
 "C93": [
  "Explorer",
  "induction on the list of addresses"
 ],
 "C61": [
  "Client",
  "inversion of answer processing, histories as lists of entries (Spec/History, Spec/Client)"
 ],
 "C62": [
  "Client",
  "inversion of answer processing, histories as lists of entries (Spec/History, Spec/Client)"
 ],
 "C63": [
  "Client",
  "inversion of answer processing, histories as lists of entries (Spec/History, Spec/Client)"
 ],
 "C64": [
  "Swap",
  "inversion of redeem and refund (Spec/Swap)"
 ],
 "C65": [
  "Swap",
  "inversion of redeem and refund (Spec/Swap)"
 ],
 "C66": [
  "ThreeBot, Regex, Transactions",
  "decoders; derivative-free matching against the language of the expression (Spec/Regex)"
 ],
 "C67": [
  "ThreeBot, Regex, Transactions",
  "decoders; derivative-free matching against the language of the expression (Spec/Regex)"
 ],
 "C68": [
  "ThreeBot, Regex, Transactions",
  "decoders; derivative-free matching against the language of the expression (Spec/Regex)"
 ],
 "C69": [
  "Duration",
  "uniqueness of the parse of unit texts; div/mod arithmetic (Spec/Duration)"
 ],
 "C101": [
  "Duration, Conditions",
  "same, composed with the lock check"
 ],
 "C70": [
  "Fulfillments",
  "state after an exception"
 ],
 "C71": [
  "IO, TxJson",
  "JSON round trip"
 ],
 "C72": [
  "TxJson, Json",
  "structure of the JSON form"
 ],
 "C73": [
  "Transactions",
  "commutation of signing steps"
 ],
 "C74": [
  "Transactions, Client",
  "hash and equality as functions of the id"
 ],
 "C75": [
  "TxJson",
  "discrimination on version"
 ],
 "C76": [
  "ThreeBot",
  "case analysis on the address kind"
 ],
 "C77": [
  "Balance",
  "induction on the drain loop"
 ],
 "C78": [
  "Balance",
  "merge of maps"
 ],
 "C79": [
  "WalletOps, TxBuild",
  "inversion of the operations; signing loop invariant"
 ],
 "C80": [
  "WalletOps, TxBuild",
  "inversion of the operations; signing loop invariant"
 ],
 "C81": [
  "WalletOps, TxBuild",
  "inversion of the operations; signing loop invariant"
 ],
 "C82": [
  "WalletOps, TxBuild",
  "inversion of the operations; signing loop invariant"
 ],
 "C83": [
  "Wallet, WalletOps",
  "outcomes with the list of posted transactions, including those of raising runs"
 ],
 "C84": [
  "Wallet, WalletOps",
  "outcomes with the list of posted transactions, including those of raising runs"
 ],
 "C85": [
  "Wallet, WalletOps",
  "outcomes with the list of posted transactions, including those of raising runs"
 ],
 "C86": [
  "Wallet, WalletOps",
  "outcomes with the list of posted transactions, including those of raising runs"
 ],
 "C87": [
  "Wallet, WalletOps",
  "outcomes with the list of posted transactions, including those of raising runs"
 ],
 "C88": [
  "Swap",
  "inversion of initiate, participate, verify, redeem, refund; liveness by construction"
 ],
 "C89": [
  "Swap",
  "inversion of initiate, participate, verify, redeem, refund; liveness by construction"
 ],
 "C90": [
  "Swap",
  "inversion of initiate, participate, verify, redeem, refund; liveness by construction"
 ],
 "C91": [
  "Swap",
  "inversion of initiate, participate, verify, redeem, refund; liveness by construction"
 ],
 "C94": [
  "Client",
  "inversion of answer processing"
 ],
 "C95": [
  "Client",
  "inversion of answer processing"
 ],
 "C96": [
  "Client, Balance",
  "composition of answers, balances and wallets (Spec/WalletBalance)"
 ],
 "C97": [
  "Client, Balance",
  "composition of answers, balances and wallets (Spec/WalletBalance)"
 ],
 "C98": [
  "Client, Balance",
  "composition of answers, balances and wallets (Spec/WalletBalance)"
 ],
 "C99": [
  "Transactions, Encoders",
  "totality of every encoder on fitting values (Spec/Encodable, Lemmas/Total)"
 ],
 "C100": [
  "Wallet, WalletOps, Swap, Balance",
  "totality of funding, signing and submission on legal wallets (Spec/Live, Spec/Redeem)"
 ],
 "C102": [
  "Client",
  "composition of the answer readers with the printers of addresses, hashes and conditions (Spec/ChainInfo)"
 ],
 "C103": [
  "Client, Overview, Keys",
  "induction over the wallet's addresses; reachable key states from C59"
 ],
 "C104": [
  "Wallet, WalletOps, Swap",
  "outcomes with the list of posted transactions, including those of raising runs"
 ],
 "C105": [
  "Connect, Explorer, TxJson",
  "induction over the explorers; C72 and C104 for what goes wrong"
 ],
 "C106": [
  "Connect",
  "case analysis on names and arguments"
 ],
 "C107": [
  "Balance",
  "induction over the history (from its end), one invariant for the four dictionaries"
 ],
 "C108": [
  "Report",
  "exact sums (C15) and the text of amounts (C18)"
 ],
 "C109": [
  "WalletOps",
  "funding (Live) plus the extra signatures of the parties; encodability of what is to be signed (C99)"
 ],
 "C110": [
  "WalletOps",
  "the same for the fulfillment of the mint condition"
 ],
 "C111": [
  "Transactions, IO, Conditions, Fulfillments, Encoders",
  "the layout is written down as total functions in Spec/Wire, without the encoders; each encoder writes its part of it (a Hoare-style calculus over what is appended)"
 ],
 "C112": [
  "TxJson",
  "relation between JSON and contents in Spec/Legacy, reading by cases, then C111"
 ],
 "C113": [
  "Transactions, IO, Fulfillments",
  "owners of conditions and keys of fulfillments in Spec/Asked; induction on the inputs; one fulfilled request removes exactly its entry"
 ],
 "C114": [
  "Sharing: fulfillments with an identity, in a store",
  "programs are lists of acts; Spec/Sharing runs them on separate values; invariant: references are distinct and every object shows its value"
 ],
 "C115": [
  "Fields: all setters and getters, one table each",
  "Spec/Fields gives the meaning of an argument per property; one-step frame lemma by cases; induction on the history"
 ],
 "C116": [
  "Amounts: a store of Currency objects, variables and outputs refer to it",
  "Spec/Amounts runs the same program with numbers; simulation by induction on the program"
 ],
 "C117": [
  "Contract: __eq__, __repr__ and the timestamp of the constructor; texts of dates by an uninterpreted clock",
  "equality through the JSON round trip of conditions (C28), durations through C69, agreement with mayRefund (Swap)"
 ],
 "C118": [
  "Compare: the six operators of Currency, ==, != and hash of BinaryData/Hash and UnlockHash; Python's hash of texts is a parameter",
  "decimal order through lt_amount/eqv_amount, texts through the encoder round trips (C11, C12), addresses through C22"
 ],
 "C119": [
  "BalanceObjects: balances and block identifiers as objects in stores, with references where Python keeps them; every operation may stop half way with an exception",
  "invariant over all programs (own identifiers, wallets filed under their addresses), frame theorem per operation, and agreement with the value model of the other properties (C119_output, C119_sum, C119_chain)"
 ],
 "C120": [
  "Chain (spec): the chain as the list of its transactions, with truthful explorers as a relation between it and the answers of the client",
  "composition: a truthful history gives exactly the unspent outputs (C58, C59, C96), funding draws on distinct unlocked ones (C52, C53), the built transaction balances (C54, C84, C91), and what is submitted is fully signed (C88)"
 ],
 "C121": [
  "Circulation (spec): what circulates, what it means that the network takes a transaction, and the steps of wallets on a growing chain",
  "invariant: C120 gives that each submitted transaction spends different unspent outputs worth what it pays; taking it keeps the chain lawful and changes what circulates by fee and charges; induction over the steps"
 ],
 "C122": [
  "JsonText (model): json_dumps with the options used, json_loads with the scanner of Python, UTF-8, readline",
  "JsonText (spec): the grammar of JSON as an inductive relation between values and texts",
  "soundness by induction on the recursion bound, completeness by induction on the grammar, writing by recursion on values"
 ],
 "C123": [
  "Words (model): how a wallet gets its seed; to_mnemonic and to_entropy of the package mnemonic as bit lists",
  "Words (spec): the words as the digits to the base 2048 of the seed and its checksum",
  "bit lists are numbers of known length: values of pieces, injectivity of digits; C59 for the keys"
 ],
 "C124": [
  "Errors (model): the operations with what their exceptions carry; the rest of the model keeps only the class",
  "Errors (spec): for each exception what it carries and why it may be raised",
  "case analysis along the operation; erasing what is carried gives the operations of the other properties (the _raises theorems)"
 ],
 "C125": [
  "Text, Primitive (model): Decimal(text), the value setter and from_json; CurrencyText (spec): the grammar of numbers, blanks and unit, and the number a text stands for",
  "the parser is shown to decide the grammar (iff), which is therefore unambiguous; capital letters commute with every step"
 ],
 "C126": [
  "Wallet, WalletOps, TxJson, Fulfillments, IO (model): transaction_sign on the JSON of a transaction; Circulate (spec): the owners, who takes part, what it means that all of them have signed, and the transaction going from hand to hand",
  "invariant of the circulation, by induction on the hands: the JSON of what a wallet returns reads back as the same transaction with the same signatures in the same order; adding the signatures of one more wallet; comparison of the number of signatures with the number required"
 ],
 "C127": [
  "Conditions, Crypto, Fulfillments, IO, TxJson (model): the from_json functions; Reading (spec): relations between a JSON value and what it says, made of the grammar of the texts and of the fields of the objects, without any reading function",
  "equivalence, function by function, of a successful run with the relation; induction on the texts and on the lists"
 ],
 "C128": [
  "ThreeBot, Regex (model): the setter of NetworkAddress and its pattern (the module ipaddress is a parameter); HostName (spec): the grammar of host names in words and counts of characters, without a regular expression",
  "language of the regular expression (Lemmas.Regex), compared with the grammar part by part; big-endian numbers are injective for a given length"
 ],
 "C129": [
  "Ip (model): the text parser and printer of ipaddress in CPython 3.11, function by function, compared with the interpreter by tools/fuzz.py; IpText (spec): the grammar of IPv4 and IPv6 texts and the canonical form of RFC 5952",
  "split and join are inverse; the parts around the double colon; invariant of the loop that looks for the longest run of zeros; the assumption LawfulIp used by C66, C127, C128 and the theorems about bots is a theorem about this model (C129_lawful)"
 ],
 "C130": [
  "Calendar (model): time.strptime with the regular expressions of CPython 3.11 and backtracking over them, the day count of datetime, gmtime and strftime, getEpochDeltaTime; compared with the interpreter by tools/fuzz.py; the time zone is a parameter. Calendar (spec): days counted by adding up the lengths of years and months; what each notation means",
  "closed form of the day count by induction on the year; a directive takes all the digits of its place or nothing; the search for the year and month of a day is inverse to the count; order of moments"
 ],
 "C131": [
  "Float (model): double precision as rational numbers with 53 binary digits and ties to even; float() of a text; the accumulation of timedelta in CPython 3.11 and total_seconds; compared with the interpreter by tools/fuzz.py. Float (spec): a number with its point; the sum of the units",
  "error bounds: half a unit in the last place for each operation, added up over the units by induction; whole numbers below 2^53 are exact"
 ],
 "C132": [
  "Moment (model): timedelta.total_seconds, datetime.timestamp and local_to_seconds of CPython 3.11, OutputLock on such objects; compared with the interpreter by tools/fuzz.py. Moment (spec): a clock with one change, the first and last time it shows a moment",
  "linear arithmetic over the two sides of the change; error bounds of the two roundings"
 ],
 "C133": [
  "Url (model): urlparse, urlunparse and Request of CPython 3.11.10, _updateUrlParams and _http_request up to urlopen; compared with the interpreter by tools/fuzz.py. Url (spec): addresses and endpoints in their parts",
  "the parts of a good URL come back from each step; the client with any two worlds that agree at good endpoints"
 ],
 "C134": [
  "Open (spec): the keys an operation may use, which conditions they open, the keys of the signatures of a fulfillment. Circulation (spec): runs carry the wallets that act",
  "a wallet that signs differently with keys it does not have does the same in every operation, so each signature is of a key it has; what such signatures unlock the wallet can open; induction over the run"
 ],
 "C135": [
  "Arrive (spec): what addresses own on a chain, what a balance shows, what a transaction pays to them",
  "the balance lists the unspent outputs at the addresses once each (C120), the network takes away what is spent and adds the outputs (C121), C56 says what the outputs are; both wallets are read before and after"
 ],
 "C136": [
  "Arrive, Chain, Live (specs): what addresses own on a chain, what the network asks of a transaction, when conditions are ordinary ones",
  "what the chain holds at the addresses the balance offers (C135), the balance is well-filed and sane since the chain is lawful, so C100 applies; what is submitted is valid by C120, pays as asked by C56, and can be taken"
 ],
 "C137": [
  "Release, Chain, Circulation, Swap, Redeem (specs): explorers that list a contract, transactions that release one, chains that take transactions",
  "a listed unspent output is reported (converse of C61), so C90 gives the submitted transaction, C65 what it pays, C120 its validity, and a chain that takes it exists; a spent contract is not reported as unspent, since truthful explorers list the spending transaction"
 ],
 "C138": [
  "Exchange, Release, Swap, Chain, Circulation (specs): contracts a chain holds as asked for, wallets that can claim, contracts that can be claimed, what a claim reveals",
  "a returned contract is the first output of the posted transaction under the id the network computes (C88, C65); a chain that takes it holds it unspent (C120, C121); C137 applies to whoever claims it from any later chain, and to the receiver of the other contract with the secret the claim shows (C65); with C100 and C136 the wallet that owns the amount gets that far: creation, posting, acceptance and claim composed"
 ]
}