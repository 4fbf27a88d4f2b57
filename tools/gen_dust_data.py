#!/usr/bin/env python3
"""Writes lean/Verif/Model/DustData.lean: the numbers in the data files of /repo/data, and checks that the layout of `line` gives back every
line of the files."""
import re
F = [('silicon', 'callindex.out_silD03'), ('parallel', 'callindex.out_CpaD03_0.10'), ('perpendicular', 'callindex.out_CpeD03_0.10')]
W = [(0, 6), (2, 4), (1, 4), (2, 4), (1, 4)]


def layout(row):
    s = ''
    for (b, p), (m, e) in zip(W, row):
        a = abs(m)
        s += ' ' * (b - 1 if m < 0 else b) + ('-' if m < 0 else '') + '%d.%0*dE%s%02d' % (a // 10 ** p, p, a % 10 ** p, '-' if e < 0 else '+', abs(e))
    return s


out = '''import Verif.Spec.TableFile

/-!
# The data files (data/callindex.out_silD03, data/callindex.out_CpaD03_0.10, data/callindex.out_CpeD03_0.10)

Generated by `tools/gen_dust_data.py`, which also checks that `line` gives every line of the files after the comments.  A number is given as its digits
without the decimal point, and the exponent: `1.239840E+05` is `1239840 5`.
-/
namespace Verif.DustData

open Verif.TableFile.Spec Verif.Text.Spec

set_option autoImplicit false

/-- a line: five numbers, each with its exponent -/
abbrev Row := List (Int × Int)

def r (a b c d e f g h i j : Int) : Row := [(a, b), (c, d), (e, f), (g, h), (i, j)]

/-- the last `k` decimal digits -/
def digitsOf : Nat → Nat → List Nat
  | 0, _ => []
  | k + 1, n => digitsOf k (n / 10) ++ [n % 10]

/-- the layout of a number: blanks (one less if there is a sign), digits after the point -/
def number (blanks places : Nat) (x : Int × Int) : Literal :=
  ⟨List.replicate (if x.1 < 0 then blanks - 1 else blanks) ' ', if x.1 < 0 then some true else none, [x.1.natAbs / 10 ^ places],
    some (digitsOf places x.1.natAbs), some (true, some (decide (x.2 < 0)), [x.2.natAbs / 10, x.2.natAbs % 10])⟩

/-- the layout of a line (data/callindex.out_silD03:9-845, data/callindex.out_CpaD03_0.10:9-394, data/callindex.out_CpeD03_0.10:9-391) -/
def line : Row → Line
  | [a, b, c, d, e] => .numbers [number 0 6 a, number 2 4 b, number 1 4 c, number 2 4 d, number 1 4 e] []
  | _ => .comment []

'''
for n, f in F:
    L = open('/repo/data/' + f).read().split('\n')
    assert L[-1] == ''
    L = L[:-1]
    k = 0
    while L[k].startswith('#'):
        k += 1
    rows = []
    for l in L[k:]:
        row = []
        for (b, p), t in zip(W, l.split()):
            m = re.fullmatch(r'(-?)(\d)\.(\d+)E([+-]\d\d)', t)
            assert m and len(m[3]) == p
            row.append((int(m[1] + m[2] + m[3]), int(m[4])))
        assert layout(row) == l, l
        assert all(l2 != '-0' for l2 in l.split())
        rows.append(row)
    out += 'set_option maxRecDepth 20000 in\n/-- data/%s:%d-%d -/\ndef %s : List Row := [\n' % (f, k + 1, len(L), n)
    out += ',\n'.join('  r ' + ' '.join(('(%d)' % x if x < 0 else '%d' % x) for p in row for x in p) for row in rows)
    out += ']\n\n'
out += 'end Verif.DustData\n'
open('/verif/lean/Verif/Model/DustData.lean', 'w').write(out)
