#!/bin/sh
# Compares the Lean model with port.py, a second transcription of the Rust code.
# Usage: run.sh SEED COUNT   (needs the built modules of lean/)
here=$(cd "$(dirname "$0")" && pwd)
tmp=$(mktemp -d)
cp "$here/port.py" "$here/gen.py" "$tmp"; cp "$here/driver.lean.txt" "$tmp/Driver.lean"
(cd "$tmp" && python3 gen.py "$1" "$2") || exit 1
(cd "$here/../lean" && lake env lean --run "$tmp/Driver.lean" < "$tmp/in.txt" > "$tmp/out.txt")
cmp "$tmp/exp.txt" "$tmp/out.txt" && echo "no differences"
