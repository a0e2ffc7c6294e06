"""Write AXIOMS.tsv: the axioms each theorem in MANIFEST.json depends on. Run in /verif after a build."""
import collections, json, subprocess, tempfile

names = sorted({t for c in json.load(open("MANIFEST.json"))["claims"] for t in c["theorems"]})
with tempfile.NamedTemporaryFile("w", suffix=".lean") as f:
    f.write("import Verif\n" + "".join(f"#print axioms Wot.{n.removeprefix('Wot.')}\n" for n in names))
    f.flush()
    out = subprocess.run(["lake", "env", "lean", f.name], cwd="lean", capture_output=True, text=True).stdout
text = " ".join(out.split())
axioms = {}
for part in text.split("'Wot.")[1:]:
    name, rest = part.split("'", 1)
    axioms[name] = rest.split("[", 1)[1].split("]")[0] if "[" in rest else ""
    assert axioms[name] or "does not depend on any axioms" in rest, part
with open("AXIOMS.tsv", "w") as f:
    for n in names:
        f.write(f"{n}\t{axioms[n.removeprefix('Wot.')] or '(none)'}\n")
for k, v in collections.Counter(axioms.values()).most_common():
    print(v, k or "(none)")
