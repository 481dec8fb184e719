#!/bin/sh
# build given modules, print errors only
cd /verif/lean && lake build "$@" 2>&1 | awk '/^error|^trace: .*error/{p=1} /^warning|^⚠|^✔|^ℹ|^info/{p=0} /^✖/{print} p{print}' | grep -v "^trace"| grep -v "  • " | cut -c1-1000 | head -${LB:-70}
