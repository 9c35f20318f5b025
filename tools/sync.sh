#!/bin/sh
# regenerate lean/Verif.lean and MANIFEST.json
cd "$(dirname "$0")/.."
(cd lean && for d in Model Spec Lemmas Props; do for f in $(ls Verif/$d/*.lean | sort); do echo "import Verif.$d.$(basename $f .lean)"; done; done) > lean/Verif.lean
python3 tools/manifest.py
