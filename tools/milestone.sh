#!/bin/sh
# Regenerate, build, commit with message $1, check.
cd /verif
python3 tools/gen_root.py; python3 tools/gen_manifest.py
(cd lean; lake build > /tmp/build.log 2>&1) || { grep -A5 error /tmp/build.log | head -40; exit 1; }
tools/axioms.sh
git add -A; git commit -qm "$1"; vcheck 2>&1 | tail -12
