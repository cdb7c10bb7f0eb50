#!/bin/sh
# regenerate properties, manifest, axioms and design document, then build
cd "$(dirname "$0")/.." || exit 1
python3 tools/gen_properties.py && python3 tools/gen_manifest.py && cd lean && lake build 2>&1 | tail -n 2 &&
lake env lean /tmp/axioms.lean > /tmp/axioms.out && cd .. && python3 tools/gen_design.py
grep -rn 'sorry\|admit\|^axiom \|native_decide\|bv_decide' lean/Verif | head
