#!/usr/bin/env python3
"""Writes lean/Verif/Front/Ops.lean from mpp-front/src/lib/traslator/operations.json."""
import json, sys
src = sys.argv[1] if len(sys.argv) > 1 else '/repo/mpp-front/src/lib/traslator/operations.json'
ops = json.load(open(src))
q = lambda s: json.dumps(s)  # Lean and JSON agree on these escapes
out = []
out.append('''/-!
# `operations.json`

Verbatim copy of `mpp-front/src/lib/traslator/operations.json`, written by `tools/gen_ops.py`.
-/
namespace Mpp.Front

/-- A JavaScript string. Characters outside the basic plane are one `Char` here and two code units
there; none of the modelled functions looks inside such a pair. -/
abbrev Str := List Char

/-- `interface Instruction` (`traslator/index.ts:24-30`). -/
structure Operation where
  HEX : Str
  NEMO : Str
  REGEX : Str
  GRUPO : Nat
  ALLOC : Nat
  deriving DecidableEq

private def row (HEX NEMO REGEX : String) (GRUPO ALLOC : Nat) : Operation :=
  ⟨HEX.toList, NEMO.toList, REGEX.toList, GRUPO, ALLOC⟩

/-- `operations.json:1-617`, in the order of the file. -/
def operations : List Operation := [''')
for i, o in enumerate(ops):
    assert list(o) == ['HEX', 'NEMO', 'REGEX', 'GRUPO', 'ALLOC']
    out.append('  row %s %s %s %d %d%s' % (q(o['HEX']), q(o['NEMO']), q(o['REGEX']), o['GRUPO'], o['ALLOC'], ',' if i + 1 < len(ops) else ']'))
out.append('\nend Mpp.Front')
print('\n'.join(out))
