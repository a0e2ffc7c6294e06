#!/usr/bin/env python3
"""Regenerate lean/Verif.lean from the modules under lean/Verif."""
import pathlib
root = pathlib.Path(__file__).resolve().parent.parent / "lean"
out = []
for d in ["Model", "Spec", "Lemmas", "Props", "Conformance"]:
    for p in sorted((root / "Verif" / d).glob("**/*.lean")):
        out.append("import " + ".".join(p.relative_to(root).with_suffix("").parts))
(root / "Verif.lean").write_text("\n".join(out) + "\n")
