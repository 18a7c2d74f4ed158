"""Writes lean/Verif/Model/PrunerTables.lean from fplll/factorial.const and fplll/ballvol.const (argument: the directory of the two files)."""
import re, sys

def load(fn):
    out = []
    for s in re.findall(r'"([^"]+)"', open(fn).read()):
        m = re.match(r'(\d+)\.(\d+)(?:e(-?\d+))?$', s)
        out.append((m[1], m[2], int(m[3] or 0)))
    return out

d = sys.argv[1]
fact = [(int(a + b), e + len(a) - 1, len(a + b)) for a, b, e in load(d + '/factorial.const')]
assert all(n == 47 for _, _, n in fact)
vol = [(int(a + b), -e, len(b)) for a, b, e in load(d + '/ballvol.const')]
assert all(n == 56 for _, _, n in vol)
print('''/-!
# The tables of the pruner: fplll/factorial.const and fplll/ballvol.const

Generated by tools/gen_tables.py.  An entry `(m, k)` of `preFactorial` is the decimal number with the 47 digits `m` whose first digit stands for `10^k`, that is `m / 10^46 * 10^k`.  An entry `(m, k)` of `preBallVol` is `m / 10^56 * 10^(-k)` (all numbers have 56 digits after the point).  The strings are the decimal numbers that `strtod`, `mpfr_set_str`, ... round to the floating-point type.
-/

namespace Fplll
namespace PrunerTables
''')
def table(name, doc, rows, chunk=128):
    n = 0
    for i in range(0, len(rows), chunk):
        print(f'/-- entries {i} to {i + chunk - 1} of `{doc} -/')
        print(f'def {name}{n} : List (Nat × Nat) := [')
        print(',\n'.join(f'  ({r[0]}, {r[1]})' for r in rows[i:i + chunk]) + ']\n')
        n += 1
    print(f'/-- `{doc} -/')
    print(f'def {name} : List (Nat × Nat) := ' + ' ++ ('.join(f'{name}{j}' for j in range(n)) + ')' * (n - 1) + '\n')
table('preFactorial', 'pre_factorial` of factorial.const:1-2050', fact)
table('preBallVol', 'pre_ball_vol` of ballvol.const:1-2050', vol)
print('end PrunerTables\nend Fplll')
