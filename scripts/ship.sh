#!/bin/bash
# build everything, commit with the given message, run the gate
cd /verif && python3 scripts/manifest.py || exit 1
cd lean && lake build 2>&1 | grep -A5 "error" | head -20
[ ${PIPESTATUS[0]} -eq 0 ] || { echo BUILD FAILED; exit 1; }
cd .. && git add -A && git commit -qm "$1"
vcheck 2>&1 | tail -3
