#!/bin/sh
# regenerate lean/Verif.lean: import every module under lean/Verif
cd "$(dirname "$0")/../lean" || exit 1
find Verif -name '*.lean' | LC_ALL=C sort | sed 's/\.lean$//; s/\//./g; s/^/import /' > Verif.lean
