#!/bin/sh
# build, recompute the axiom list and reassemble DESIGN.md
set -e
cd /verif
python3 /tmp/gen/props.py; python3 /tmp/gen/manifest.py; cp /tmp/gen/*.py tools/
python3 tools/ax.py
(cd lean && lake build 2>&1 | tail -3 && lake env lean /tmp/ax.lean > /tmp/ax.out; grep -n "error" /tmp/ax.out | head -5)
python3 tools/design.py
