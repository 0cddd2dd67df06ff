#!/bin/bash
# usage: ms.sh spec.py "message" : register, build, commit, check
set -e -o pipefail
cd /verif
python3 tools/milestone.py "$1"
python3 tools/gen_properties.py
python3 tools/gen_manifest.py
(cd lean && lake build 2>&1 | tail -15)
git add -A
git commit -qm "$2"
vcheck
