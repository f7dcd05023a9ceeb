#!/bin/sh
# Regenerate lean/Verif.lean from the modules present.
cd "$(dirname "$0")/../lean" || exit 1
for f in Verif/Py/*.lean Verif/Model/*.lean Verif/Spec/*.lean Verif/Lemmas/*.lean Verif/Props/*.lean; do
  echo "import $(echo "${f%.lean}" | tr / .)"
done > Verif.lean
