#!/bin/sh
# Rewrite properties.jsonl, MANIFEST.json and AXIOMS.md after a full build.
set -e
cd /verif/lean && lake build > /tmp/reg.log 2>&1 || { grep -E "error" /tmp/reg.log | head -40; exit 1; }
python3 /verif/tools/props.py > /dev/null
python3 /verif/tools/manifest.py | tail -3
python3 /verif/tools/axioms.py
