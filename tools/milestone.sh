#!/bin/bash
# regenerate derived files, build, commit, run the gate
cd /verif && python3 tools/gen_properties.py && tools/gen_root.sh && python3 tools/design.py && python3 tools/gen_manifest.py > /tmp/manifest.txt && \
 if grep -rniwE "sorry|#exit|#guard_msgs" lean/Verif lean/Verif.lean; then echo FORBIDDEN WORD; exit 1; fi && \
 (cd lean && lake build > /tmp/build.log 2>&1 || { grep -A15 "error" /tmp/build.log | head -60; exit 1; }) && \
 git add -A && git commit -qm "$1" && vcheck 2>&1 | tail -3
