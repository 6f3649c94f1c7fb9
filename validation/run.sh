#!/bin/sh
# Runs the model on native f32 numbers against the project's own random tests, and the model of the
# floats (Flt) against the hardware.  Not part of the proofs: `#eval` in the interpreter.  About 5 minutes.
cd "$(dirname "$0")/../lean" || exit 1
for f in float hull lines sweep_simplify; do
  cat ../validation/base.txt ../validation/$f.txt > /tmp/validate_$f.lean
  echo "== $f"; lake env lean /tmp/validate_$f.lean
done
