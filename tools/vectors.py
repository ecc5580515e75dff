"""Writes lean/Verif/Props/Vectors.lean: the data in the tests of /repo, with the expected values, as examples about the model."""
import ast, glob, json, re

T = '/repo/tests/'

def hx(h): return f'bytes {len(h)//2} 0x{h}'
def txt(x):
    m = re.match(r'^((?:[a-z0-9]*:)|0x|)((?:[0-9a-f]{2}){8,})$', x)
    if not m: return json.dumps(x) + '.toList'
    h = f'text {len(m.group(2))//2} 0x{m.group(2)}'
    return f'({json.dumps(m.group(1))}.toList ++ {h})' if m.group(1) else f'({h})'
def lj(x):
    if x is None: return '.null'
    if x is True or x is False: return f'.bool {str(x).lower()}'
    if isinstance(x, int): return f'.int {x}' if x >= 0 else f'.int ({x})'
    if isinstance(x, str): return '.str ' + txt(x)
    if isinstance(x, list): return '.arr [' + ', '.join(lj(y) for y in x) + ']'
    return '.obj [' + ', '.join(f'({json.dumps(k)}, {lj(v)})' for k, v in x.items()) + ']'
def back(x):
    """The order in which the code writes the fields (the tests compare dicts, for which it does not matter)."""
    if isinstance(x, list): return [back(y) for y in x]
    if not isinstance(x, dict): return x
    return {k: back(x[k]) for k in (sorted(x) if 'minimumsignaturecount' in x else x)}
D = ' := by decide +kernel'
R = ' := by rfl'
out = []

# --- transactions
out.append('\n/-! ## tests/types/test_transactions.py -/')
names = {}; cur = None
for st in ast.parse(open(T + 'types/test_transactions.py').read()).body[-1].body:
    if isinstance(st, ast.Assign) and isinstance(st.value, ast.Dict) and st.targets[0].id.endswith('_txn_json') and not st.targets[0].id.startswith('expected'):
        v = st.targets[0].id.split('_')[0]; names[v] = names.get(v, 0) + 1
        cur = v + ('' if names[v] == 1 else chr(96 + names[v]))
        out.append(f'\n/-- Line {st.lineno}. -/\ndef {cur}Json : Json := {lj(ast.literal_eval(st.value))}')
    elif isinstance(st, ast.Assert):
        s = ast.unparse(st.test); L = f'-- line {st.lineno}\n'
        if m := re.match(r"\w+_txn\.signature_hash_get\((.*)\)\.hex\(\) == '(\w+)'", s):
            a = m.group(1)
            a = {'BotTransactionBaseClass.SPECIFIER_SENDER': 'specifier specSender', 'BotTransactionBaseClass.SPECIFIER_RECEIVER': 'specifier specReceiver'}.get(a) or f'.int {a}'
            out.append(f'{L}example : sigHash {cur}Json [{a}] = {hx(m.group(2))}{D}')
        elif m := re.match(r"\w+_txn\.binary_encode\(\)\.hex\(\) == '(\w+)'", s):
            out.append(f'{L}example : encoded {cur}Json = {hx(m.group(1))}{D}')
        elif m := re.match(r"str\(\w+_txn\.(coin|blockstake)_outputid_new\((\d+)\)\) == '(\w+)'", s):
            out.append(f'{L}example : {m.group(1)}Id {cur}Json {m.group(2)} = {hx(m.group(3))}{D}')
        elif m := re.match(r"\w+_txn\.required_bot_fees == '(\d+) TFT'", s):
            out.append(f'{L}example : fees {cur}Json = some "{m.group(1)} TFT".toList{D}')
        elif m := re.match(r"BotTransactionBaseClass.compute_monthly_bot_fees\((\d+)\) == '(\d+) TFT'", s):
            out.append(f'{L}example : ((monthlyFees {m.group(1)}).toOption.map fun c => c.str true) = some "{m.group(2)} TFT".toList{D}')
        elif m := re.match(r"len\(\w+_txn.coin_outputs\) == (\d)", s):
            out.append(f'{L}example : (txOf {cur}Json).map (fun t => t.coinOutputs.length) = some {m.group(1)}{D}')
        elif m := re.match(r"\w+_txn.coin_outputs\[0\].condition.unlockhash == '(\w+)'", s):
            out.append(f'{L}example : paidTo {cur}Json = some ({txt(m.group(1))}){D}')
        elif m := re.match(r"\w+_txn.coin_outputs\[0\].value == '?(\d+)", s):
            out.append(f'{L}example : paid {cur}Json = some "{m.group(1)} TFT".toList{D}')
        elif not re.match(r"BotTransactionBaseClass.BOT_FEE|\w+_txn.json\(\)", s):
            raise Exception(s)

# --- conditions and fulfillments
for f, pre, ty in (('types/test_conditiontypes.py', 'cond', 'Condition'), ('types/test_fulfillments.py', 'ful', 'Fulfillment')):
    out.append(f'\n/-! ## tests/{f} -/')
    env = {}; cur = None; k = 0
    for st in ast.parse(open(T + f).read()).body[-1].body:
        if isinstance(st, ast.For):
            for v in ast.literal_eval(st.iter):
                k += 1; cur = f'{pre}{k}'
                out.append(f'\n/-- Line {st.lineno}. -/\ndef {cur} : Json := {lj(v)}')
                for x in st.body:
                    s = ast.unparse(x)
                    if m := re.match(r"test_(sia|rivine)_encoded\(\w+, '(\w+)'\)", s): out.append(f'example : {pre}{m.group(1).title()} {cur} = {hx(m.group(2))}{D}')
                    elif m := re.match(r"assert str\(\w+\.unlockhash\) == '(\w+)'", s): out.append(f'example : condAddress {cur} = some ({txt(m.group(1))}){D}')
                    elif m := re.match(r"assert \w+\.json\(\) == (.*)$", s): out.append(f'example : ({pre}Back {cur}).map flat = some (flat ({lj(ast.literal_eval(m.group(1)))})){D}')
                    elif not s.startswith('cn ='): raise Exception(s)
            continue
        s = ast.unparse(st); L = f'-- line {st.lineno}\n'
        if isinstance(st, ast.Assign) and isinstance(st.value, ast.Dict):
            v = eval(ast.unparse(st.value), {}, env); env[st.targets[0].id] = v
            k += 1; cur = f'{pre}{k}'
            out.append(f'\n/-- Line {st.lineno}. -/\ndef {cur} : Json := {lj(v)}')
            out.append(f'example : ({pre}Back {cur}).map flat = some (flat {cur if json.dumps(back(v)) == json.dumps(v) else chr(40) + lj(back(v)) + chr(41)}){D}')
        elif m := re.match(r"test_(sia|rivine)_encoded\(\w+, '(\w+)'\)", s): out.append(f'{L}example : {pre}{m.group(1).title()} {cur} = {hx(m.group(2))}{D}')
        elif m := re.match(r"assert str\(\w+\.unlockhash\) == '(\w+)'", s): out.append(f'{L}example : condAddress {cur} = some ({txt(m.group(1))}){D}')
        elif m := re.match(r"assert \w+\.is_fulfilled\((.*)\)$", s):
            c = m.group(1)
            c = {'ConditionUnlockHash()': '.unlockHash .default', 'ConditionAtomicSwap()': '.atomicSwap .default .default none 0'}.get(c) or '.multiSig [] ' + re.search(r'=(\d)', c).group(1)
            out.append(f'{L}example : fulfilled {cur} ({c}) = some true{D}')
        elif m := re.match(r"assert OutputLock\((?:value=)?(\d*)\)\.value == (\d+)$", s):
            out.append(f'{L}example : outputLock {"(.int " + m.group(1) + ")" if m.group(1) else ".none"} = .ok {m.group(2)}{D}')
        elif m := re.match(r"assert OutputLock\(value='(.*)', current_timestamp=1\)\.value == (\d+)$", s):
            out.append(f'{L}example : (lockText wholeSeconds noCalendar 1 "{m.group(1)}".toList).toOption = some {m.group(2)}{D}')
        elif not re.match(r"def |assert \w+\.json\(\) == |\w+ = (Condition|Fulfillment)Types.from_json", s): raise Exception(s)

# --- other tests
out.append('\n/-! ## tests/types/test_types.py -/')
for st in ast.parse(open(T + 'types/test_types.py').read()).body[-1].body:
    s = ast.unparse(st); L = f'-- line {st.lineno}\n'
    if m := re.match(r"assert str\(Currency\((?:value=)?(.*)\)\) == '(.*)'$", s):
        a = m.group(1)
        a = '.none' if a == '' else f'(.str "{a[1:-1]}".toList)' if a[0] == "'" else f'(.int {a})'
        out.append(f'{L}example : ((Currency.set {a}).toOption.map fun c => c.str false) = some "{m.group(2)}".toList{D}')
    elif m := re.match(r"assert str\(Blockstake\((?:value=)?(.*)\)\) == '(.*)'$", s):
        a = m.group(1)
        a = '.none' if a == '' else f'(.str "{a[1:-1]}".toList)' if a[0] == "'" else f'(.int {a})'
        out.append(f'{L}example : ((Blockstake.set {a}).toOption.map Blockstake.json) = some "{m.group(2)}".toList{D}')
    elif m := re.match(r"assert str\(BinaryData\((.*)\)\) == '(.*)'$", s):
        a = m.group(1); v = re.match(r"b'(\w+)'", a)
        v = f'(.bytes (utf8 "{v.group(1)}".toList))' if v else '.none'
        fx = re.search(r'fixed_size=(\d)', a); e = '.base64' if 'base64' in a else '.hex'
        out.append(f'{L}example : ((BinData.new {v} {"(some " + fx.group(1) + ")" if fx else "none"} {e}).toOption.map BinData.str) = some "{m.group(2)}".toList{D}')
    elif s == "assert str(Hash()) == '0' * 64":
        out.append(f"{L}example : ((Hash.new .none).toOption.map Hash.str) = some (List.replicate 64 '0'){D}")
    elif m := re.match(r"assert Hash\(b'(\w+)'\)\.value == b'(\w+)'$", s):
        out.append(f'{L}example : ((Hash.new (.bytes (utf8 "{m.group(1)}".toList))).toOption.map Hash.value) = some (utf8 "{m.group(2)}".toList){D}')
    else: raise Exception(s)
out.append('\n/-! ## tests/crypto/test_crypto.py -/')
out.append('example : (merkleRoot blake2b (merklePushAll blake2b [[1], [2], [3], [4], [5]])).toOption = ' + hx(re.search(r"root == '(\w+)'", open(T + 'crypto/test_crypto.py').read()).group(1)) + D)

# --- the network
txs = {}
def walk(o, src):
    if isinstance(o, dict):
        if 'rawtransaction' in o and 'id' in o: txs.setdefault(o['id'], (o, src))
        for v in o.values(): walk(v, src)
    elif isinstance(o, list):
        for v in o: walk(v, src)
for f in sorted(glob.glob(T + '*.py')):
    for n in ast.walk(ast.parse(open(f).read())):
        if isinstance(n, ast.Constant) and isinstance(n.value, str) and 'rawtransaction' in n.value: walk(json.loads(n.value), (f.split('/')[-1], n.lineno))
out.append('''
/-! ## Transactions of the network

The answers of the explorer which the tests use contain transactions of the test network, with the ids the network computed. Here one for each version (two for
version 1): the identifier of the transaction (not for version 0, whose identifier the code does not compute), those of its coin outputs, and the addresses of the
coin outputs it spends. -/''')
seen = {}
def want(o):
    v = o['rawtransaction']['version']; s = json.dumps(o['rawtransaction'])
    if int(o['id'], 16) == 0 or not o.get('coinoutputids') or len(o.get('coininputoutputs') or []) > 3: return None
    if o.get('unconfirmed'): return None
    if v == 1: return 'swap' if '"hashedsecret"' in s else 'multi' if '"minimumsignaturecount"' in s and '"pairs"' in s else None
    return str(v)
for i, (o, src) in txs.items():
    w = want(o)
    if w is None or w in seen: continue
    seen[w] = 1
    d = 'net' + w.title()
    out.append(f'\n/-- tests/{src[0]}:{src[1]}: transaction {i}. -/\ndef {d} : Json := {lj(o["rawtransaction"])}')
    if o['rawtransaction']['version']: out.append(f'example : idOf {d} = {hx(i)}{D}')
    for n, c in enumerate(o['coinoutputids']): out.append(f'example : coinId {d} {n} = {hx(c)}{D}')
    for c in o.get('coininputoutputs') or []: out.append(f'example : condAddress ({lj(c["condition"])}) = some ({txt(c["unlockhash"])}){D}')

HEAD = open('/verif/tools/vectors_head.txt').read()
open('/verif/lean/Verif/Props/Vectors.lean', 'w').write(HEAD + '\n'.join(out) + '\n\nend TF.Props\n')
