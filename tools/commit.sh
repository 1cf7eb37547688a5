#!/bin/sh
# build, regenerate manifest, commit, vcheck
cd /verif && python3 tools/gen_manifest.py && python3 tools/gen_properties.py && (cd lean && lake build 2>&1 | grep -A12 "error" ; true) && git add -A && git commit -qm "$1" ; vcheck 2>&1 | tail -1
