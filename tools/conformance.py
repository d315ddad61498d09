#!/usr/bin/env python3
"""Runs the unit-test vectors of /repo/src against the Lean model (by evaluation, both build modes).

The vectors are read from the `mod tests` sections of the Rust files; nothing of /repo is executed. This validates the
reading of the source, it is not part of any proof. Usage: tools/conformance.py (after `lake build` in lean/).
"""
import re, subprocess, sys, os
SRC = '/repo/src/'

def tests(f):
    s = open(SRC + f + '.rs').read()
    s = s[s.index('#[cfg(test)]'):]
    s = re.sub(r'/\*.*?\*/', '', s, flags=re.S)
    return re.sub(r'//[^\n]*', '', s)

class Str(str):
    """A Rust `&str`."""

def joined(lit):
    return re.sub(r'\\\n\s*', '', lit)

def h2b(x):
    return bytes.fromhex(x)

def ev(e, env):
    e = e.strip()
    while e.startswith('&'):
        e = e[1:].strip()
    if e.startswith('mut '):
        e = e[4:].strip()
    if e in env: return env[e]
    m = re.fullmatch(r'(b?)"(.*)"', e, flags=re.S)
    if m:
        t = joined(m.group(2))
        return t.encode() if m.group(1) else Str(t)
    m = re.fullmatch(r'h2b\((.*)\)', e, flags=re.S)
    if m: return h2b(ev(m.group(1).strip().rstrip(','), env))
    m = re.fullmatch(r'\[([^;\]]*);\s*(\d+)\]', e)
    if m: return bytes([int(m.group(1), 0)]) * int(m.group(2))
    m = re.fullmatch(r'\[([^;\]]*)\]', e)
    if m: return bytes(int(x, 0) for x in m.group(1).split(',') if x.strip())
    m = re.fullmatch(r'\((\w+)\.\.(\w+)\)\.collect\(\)', e)
    if m: return bytes(range(int(m.group(1), 0), int(m.group(2), 0)))
    m = re.fullmatch(r'(\w+)\[\.\.(\d+)\]', e)
    if m: return type(env[m.group(1)])(env[m.group(1)][:int(m.group(2))])
    m = re.fullmatch(r'(\w+)\.as_bytes\(\)', e)
    if m: return env[m.group(1)].encode()
    m = re.fullmatch(r'\d+', e)
    if m: return int(e)
    raise ValueError(e[:80])

def statements(body):
    out, cur, depth, instr = [], '', 0, False
    i = 0
    while i < len(body):
        c = body[i]
        if instr:
            cur += c
            if c == '\\': cur += body[i + 1]; i += 1
            elif c == '"': instr = False
        elif c == '"': instr = True; cur += c
        else:
            if c in '([{': depth += 1
            if c in ')]}': depth -= 1
            if c == ';' and depth == 0: out.append(cur.strip()); cur = ''
            else: cur += c
        i += 1
    return out

def split_args(s):
    out, cur, depth, instr = [], '', 0, False
    for c in s:
        if c == '"': instr = not instr
        if not instr and c in '([': depth += 1
        if not instr and c in ')]': depth -= 1
        if c == ',' and depth == 0 and not instr: out.append(cur); cur = ''
        else: cur += c
    if cur.strip(): out.append(cur)
    return out

def functions(s):
    for m in re.finditer(r'#\[test\]\s*fn (\w+)\(\) \{\n(.*?)\n    \}\n', s, flags=re.S):
        yield m.group(1), m.group(2)

def calls(f, names):
    """All calls of the given helpers with evaluated arguments, in order."""
    s = tests(f)
    env0 = {}
    for m in re.finditer(r'const (\w+): &(?:str|\[u8\]) = (.*?);\n', s, flags=re.S):
        try: env0[m.group(1)] = ev(m.group(2), env0)
        except ValueError: pass
    for fn, body in functions(s):
        env = dict(env0)
        body = re.sub(r'let mut test4 = String::new\(\);\s*for _ in 0\.\.80 \{.*?\}', 'let test4 = "%s";' % ('01234567' * 80), body, flags=re.S)
        for st in statements(body):
            st = st.strip()
            m = re.fullmatch(r'let (?:mut )?(\w+)(?:: [^=]+)? = (.*)', st, flags=re.S)
            if m:
                try: env[m.group(1)] = ev(m.group(2), env)
                except ValueError: env.pop(m.group(1), None)
                continue
            m = re.fullmatch(r'(\w+)\[(\d+)\] = (\w+)', st)
            if m:
                if m.group(1) not in env or max(env[m.group(1)], default=0) > 255 or int(m.group(3), 0) > 255: continue
                b = bytearray(env[m.group(1)]); b[int(m.group(2))] = int(m.group(3), 0); env[m.group(1)] = bytes(b)
                continue
            m = re.fullmatch(r'(\w+)\.copy_from_slice\((.*)\)', st, flags=re.S)
            if m and m.group(1) in env:
                env[m.group(1)] = ev(m.group(2), env)
                continue
            m = re.fullmatch(r'(\w+)(?:::<(\w+)>)?\((.*)\)', st, flags=re.S)
            if m and m.group(1) in names:
                yield m.group(1), m.group(2), [ev(a, env) for a in split_args(m.group(3))]
                continue
            if not re.match(r'assert|for |stream|chacha|poly_|sha|aes|processor', st): print('skipped', f, fn, st[:60], file=sys.stderr)

def by(x):
    if isinstance(x, str): x = h2b(x)
    return '(h "%s")' % x.hex()
def z(x):
    return '(zeros %d)' % (len(h2b(x)) if isinstance(x, str) else len(x))
def raw(x):
    return x.encode() if isinstance(x, str) else x

checks = []
def add(name, cond): checks.append((name, cond))

for _, E, (key, msg, nonce, data, tag, ct) in calls('gcm', {'check'}):
    add('gcm', f'((Gcm.new Aes.{E} {by(key)}).bind fun st => Gcm.encrypt Aes.{E} m st {by(msg)} {by(nonce)} {by(data)} {z(msg)}) == some ({by(ct)}, {by(tag)})')
    add('gcm', f'((Gcm.new Aes.{E} {by(key)}).bind fun st => Gcm.decrypt Aes.{E} m st {by(ct)} {by(nonce)} {by(data)} {by(tag)} {z(ct)}) == some ({by(msg)}, true)')
for _, _, (exp, hk, a, c) in calls('ghash', {'check'}):
    add('ghash', f'GHash.ghash m {by(hk)} {by(a)} {by(c)} == some {by(exp)}')
for _, _, (ikm, salt, info, prk, okm) in calls('hkdf', {'check'}):
    add('hkdf', f'Hkdf.extract Sha2.Sha256 m {by(salt)} {by(ikm)} {by(prk)} == some {by(prk)}')
    add('hkdf', f'Hkdf.expand Sha2.Sha256 m {by(prk)} {by(info)} {by(okm)} == some {by(okm)}')
for _, _, args in calls('hmac', {'check'}):
    for n, e in zip((512, 384, 256, 224), args[:4]):
        add('hmac', f'Hmac.hmac_sha{n} m {by(raw(args[4]))} {by(raw(args[5]))} == some {by(e)}')
        add('hmac', f'Hmac.verify Sha2.Sha{n} m {by(raw(args[4]))} {by(raw(args[5]))} {by(e)} == some true')
for fn, _, args in calls('sha2', {'check', 'check512', 'check256'}):
    ns = {'check': (512, 384, 256, 224), 'check512': (512, 384), 'check256': (256, 224)}[fn]
    msg = raw(args[-1])
    if len(msg) == 1000000: lit = '(List.replicate 1000000 (0x61 : U8))'
    else: lit = by(msg)
    for n, e in zip(ns, args):
        add('sha2', f'Sha2.sha{n} m {lit} == some {by(e)}')
        if len(msg) < 1000000:
            add('sha2', f'(((chunks 4 {lit}).foldlM (fun s w => Sha2.Sha{n}.update m s w) Sha2.Sha{n}.default).bind fun s => Sha2.Sha{n}.writeDigest m s (zeros {len(h2b(e))})) == some {by(e)}')
for _, _, (x, k, u) in calls('curve25519', {'check'}):
    add('curve25519', f'X25519.scalarmult m {by(k)} {by(u)} == some {by(x)}')
add('curve25519', 'X25519.scalarmult m (h "09" ++ zeros 31) (h "09" ++ zeros 31) == some (h "422c8e7a6227d7bca1350b3e2bb7279f7897b87bb6854b783c60e80311ae3079")')
s = tests('curve25519')
for p in 'ab':
    sk = re.search(r'sk_%s = "(\w+)"' % p, s).group(1); pk = re.search(r'pk_%s = "(\w+)"' % p, s).group(1)
    add('curve25519', f'X25519.genPk m {by(sk)} == some {by(pk)}')
for _, _, (sk, pk, msg, sig) in calls('ed25519', {'check'}):
    add('ed25519', f'Ed25519.genPk m {by(sk)} == some {by(pk)}')
    add('ed25519', f'Ed25519.sign m {by(msg)} {by(sk)} == some {by(sig)}')
    add('ed25519', f'Ed25519.verify m {by(msg)} {by(sig)} {by(pk)} == some true')
    add('ed25519', f'Ed25519.verify m {by(msg + "00")} {by(sig)} {by(pk)} == some false')
for fn, _, args in calls('poly1305', {'check_encrypt', 'check_poly_key_gen'}):
    if fn == 'check_poly_key_gen':
        exp, key, nonce = args
        add('poly1305', f'((ChaCha20.new {by(key)} {by(nonce)}).map Poly1305.polyKeyGen) == some {by(exp)}')
    else:
        key, nonce, data, msg, ct, tag, pk = args
        add('poly1305', f'Poly1305.encrypt m {by(key)} {by(raw(msg))} {by(nonce)} {by(data)} {z(ct)} == some ({by(ct)}, {by(tag)})')
        add('poly1305', f'Poly1305.decrypt m {by(key)} {by(ct)} {by(nonce)} {by(data)} {by(tag)} {z(ct)} == some ({by(raw(msg))}, true)')
        add('poly1305', f'((ChaCha20.new {by(key)} {by(nonce)}).map Poly1305.polyKeyGen) == some {by(pk)}')
for _, _, (exp, key, nonce, ctr) in calls('chacha20', {'check_block'}):
    add('chacha20', f'((ChaCha20.new {by(key)} {by(nonce)}).map fun s => ChaCha20.block s {ctr}) == some {by(exp)}')
s = tests('chacha20')
key = re.search(r'KEY: &str = "(\w+)"', s).group(1)
msg = joined(re.search(r'let message = "(.*?)";', s, flags=re.S).group(1)).encode()
ct = joined(re.search(r'let ciphertext = h2b\(\s*"(.*?)"', s, flags=re.S).group(1))
add('chacha20', f'(do let s ← ChaCha20.Stream.new {by(key)} (h "000000000000004a00000000"); let (_, s) ← ChaCha20.Stream.process m s (zeros 64) (zeros 64); '
    f'let (o, _) ← ChaCha20.Stream.encrypt m s {by(msg)} {z(ct)}; pure o) == some {by(ct)}')
s = tests('aes')
inp = re.search(r'INPUT: &str = "(\w+)"', s).group(1)
key = re.search(r'KEY: &str = "(\w+)"', s).group(1)
outp = re.search(r'OUTPUT: &str = "(\w+)"', s).group(1)
tri = [(key, outp, 'Aes256')] + re.findall(r'let key = &h2b\("(\w+)"\);\s*let output = h2b\("(\w+)"\);\s*let aes = (Aes\d+)', s)
for k, o, E in tri:
    add('aes', f'((Aes.{E}.new {by(k)}).map fun st => Aes.{E}.permute st {by(inp)}) == some {by(o)}')
m_ = re.search(r'fn test_key_expansion\(\) \{\s*let key = &h2b\("(\w+)"\);\s*let schedule = h2b\(\s*"(.*?)"', s, flags=re.S)
add('aes', f'Aes.keyExpansion 8 {by(m_.group(1))} == some {by(joined(m_.group(2)))}')
tabs = {n: re.findall(r'"(\w+)"', re.search(r'const %s: [^=]* = &\[(.*?)\];' % n, s, flags=re.S).group(1)) for n in ('START', 'SUB_BYTES', 'SHIFT_ROWS', 'MIX_COLUMNS')}
for a, b, f in (('START', 'SUB_BYTES', 'subBytes'), ('SUB_BYTES', 'SHIFT_ROWS', 'shiftRows'), ('SHIFT_ROWS', 'MIX_COLUMNS', 'mixColumns')):
    for x, y in zip(tabs[a], tabs[b]): add('aes', f'Aes.{f} {by(x)} == {by(y)}')
for i, (x, y) in enumerate(zip(tabs['START'][1:], tabs['MIX_COLUMNS'])):
    add('aes', f'((Aes.keyExpansion 8 {by(key)}).map fun ks => Aes.addRoundKey ks {by(y)} {i + 1}) == some {by(x)}')

names = sorted(set(n for n, _ in checks))
out = '''import Verif.Model.Hkdf
import Verif.Model.Gcm
import Verif.Model.Poly1305
import Verif.Model.Ed25519
import Verif.Model.X25519
set_option maxRecDepth 100000
set_option linter.unusedVariables false
namespace CryptoPure.Model
def hexVal (c : Char) : Nat := if c.isDigit then c.toNat - 48 else c.toNat - 87
def hexGo : List Char → Bytes
  | a :: b :: r => BitVec.ofNat 8 (16 * hexVal a + hexVal b) :: hexGo r
  | _ => []
def h (s : String) : Bytes := hexGo s.toList
'''
for n in names:
    cs = [c for k, c in checks if k == n]
    for i, c in enumerate(cs): out += f'def {n}_{i} (m : Mode) : Bool := {c}\n'
    out += f'def {n}_all : List (Mode → Bool) := [{", ".join(f"{n}_{i}" for i in range(len(cs)))}]\n'
    out += f'#eval s!"{n}: debug {{({n}_all.filter (· .debug)).length}}, release {{({n}_all.filter (· .release)).length}} of {{{n}_all.length}}"\n'
out += 'end CryptoPure.Model\n'
path = '/tmp/conformance_gen.lean'
open(path, 'w').write(out)
os.chdir(os.path.join(os.path.dirname(os.path.abspath(__file__)), '..', 'lean'))
r = subprocess.run(['lake', 'env', 'lean', path], capture_output=True, text=True)
print(r.stdout[-6000:], r.stderr[-2000:])
