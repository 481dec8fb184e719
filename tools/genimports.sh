#!/bin/sh
# Regenerate lean/Verif.lean from the module files.
cd "$(dirname "$0")/../lean" && { for d in Model Spec Lemmas Props; do ls Verif/$d/*.lean | sed 's/\.lean$//; s#/#.#g; s/^/import /'; done; } > Verif.lean
