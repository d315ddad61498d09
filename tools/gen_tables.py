#!/usr/bin/env python3
"""Generate lean/Verif/Model/EdTables.lean (the constants of /repo/src/const_curve25519.rs) and
lean/Verif/Proofs/EdCerts.lean (affine coordinates of the multiples of the base point, used as certificates)."""
import re, os, ast
root = os.path.dirname(os.path.dirname(os.path.abspath(__file__)))
src = open('/repo/src/const_curve25519.rs').read().split('\n')
def const(name):
    start = next(i for i, l in enumerate(src) if re.match(r'pub\(crate\) const %s:' % name, l))
    end = start
    while not src[end].rstrip().endswith('];') or src[end].startswith(' '): end += 1
    text = '\n'.join(src[start:end + 1])
    return ast.literal_eval(text[text.index('=') + 1:].strip().rstrip(';')), start + 1, end + 1
out = ['/-! Constants of /repo/src/const_curve25519.rs, transcribed by tools/gen_tables.py. -/', '', 'namespace CryptoPure.Model.Ed25519', '']
def lst(f): return '[' + ', '.join(map(str, f)) + ']'
for n in ['D', 'D2', 'SQRTM1']:
    v, a, b = const(n)
    out += ['/-- `%s`, src/const_curve25519.rs:%d-%d. -/' % (n, a, b), 'def %s : List Int :=' % n, '  ' + lst(v), '']
def tab(rows, ind):
    return ('[' + (',\n' + ind).join('[' + (',\n' + ind + ' ').join(lst(f) for f in r) + ']' for r in rows) + ']')
BI, a, b = const('BI')
out += ['/-- `BI`, src/const_curve25519.rs:%d-%d: entries `[y + x, y - x, 2 d x y]`. -/' % (a, b), 'def BI : List (List (List Int)) :=', '  ' + tab(BI, '   '), '']
BASE, a, b = const('BASE')
for i, r in enumerate(BASE):
    out += ['/-- `BASE[%d]`, src/const_curve25519.rs:%d-%d. -/' % (i, a, b), 'def base%d : List (List (List Int)) :=' % i, '  ' + tab(r, '   '), '']
out += ['/-- `BASE`, src/const_curve25519.rs:%d-%d: entries `[y + x, y - x, 2 d x y]`. -/' % (a, b), 'def BASE : List (List (List (List Int))) :=',
  '  [' + ', '.join('base%d' % i for i in range(32)) + ']', '', 'end CryptoPure.Model.Ed25519']
open(root + '/lean/Verif/Model/EdTables.lean', 'w').write('\n'.join(out) + '\n')
# certificates
p = 2**255 - 19
inv = lambda x: pow(x, p - 2, p)
d = -121665 * inv(121666) % p
def add(P, Q):
    t = d * P[0] * Q[0] * P[1] * Q[1]
    return ((P[0]*Q[1] + Q[0]*P[1]) * inv(1 + t) % p, (P[1]*Q[1] + P[0]*Q[0]) * inv(1 - t) % p)
B = (15112221349535400772501151409588531511454012693041857206046113283949847762202, 46316835694926478169428394003475163141307993866256225615783033603165251855960)
o = ['/-! Certificates generated by tools/gen_tables.py: affine coordinates of multiples of the base point. Nothing about them is',
     'assumed; Verif/Proofs/EdTables.lean checks them. -/', '', 'namespace CryptoPure.Ed', '']
def pts(l): return '[' + ',\n   '.join('(%d, %d)' % q for q in l) + ']'
P = B
for i in range(32):
    row = [P]
    for j in range(7): row.append(add(row[-1], P))
    q = row[-1]; ds = []
    for j in range(5): q = add(q, q); ds.append(q)
    o += ['/-- The points `(j + 1) 256^%d B`, then the doublings leading to `256^%d B`. -/' % (i, i + 1),
      'def row%d : List (Nat × Nat) × List (Nat × Nat) :=' % i, '  (' + pts(row) + ',', '   ' + pts(ds) + ')', '']
    P = q
o += ['/-- All rows. -/', 'def rows : List (List (Nat × Nat) × List (Nat × Nat)) :=', '  [' + ', '.join('row%d' % i for i in range(32)) + ']', '']
B2 = add(B, B); odd = [B]
for j in range(7): odd.append(add(odd[-1], B2))
o += ['/-- `2 B`. -/', 'def two : Nat × Nat := (%d, %d)' % B2, '', '/-- The odd multiples `(2 j + 1) B`. -/', 'def odds : List (Nat × Nat) :=', '  ' + pts(odd), '']
L = 2**252 + 27742317777372353535851937790883648493
bits = bin(L)[3:]
steps = []; q = B
for c in bits:
    q = add(q, q); e = q
    if c == '1': e = add(q, B)
    steps.append((c == '1', q, e)); q = e
assert q == (0, 1)
o += ['/-- Double-and-add from `B` to `L B`: bit, doubled point, next point. -/', 'def orderSteps : List (Bool × (Nat × Nat) × (Nat × Nat)) :=',
  '  [' + ',\n   '.join('(%s, (%d, %d), (%d, %d))' % (str(b).lower(), *x, *y) for b, x, y in steps) + ']', '', 'end CryptoPure.Ed']
open(root + '/lean/Verif/Proofs/EdCerts.lean', 'w').write('\n'.join(o) + '\n')
