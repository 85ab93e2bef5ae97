"""Writes AXIOMS.md: the axioms every theorem named in MANIFEST.json depends on (run after `lake build`)."""
import json
import pathlib
import re
import subprocess
import tempfile

ROOT = pathlib.Path(__file__).resolve().parent.parent
claims = json.loads((ROOT / "MANIFEST.json").read_text())["claims"]
names = [t for c in claims for t in c["theorems"]]
src = "import Verif\n" + "".join(f"#print axioms {n}\n" for n in names)
with tempfile.NamedTemporaryFile("w", suffix=".lean", delete=False) as f:
    f.write(src)
out = subprocess.run(["lake", "env", "lean", f.name], cwd=ROOT / "lean", capture_output=True, text=True).stdout
found = {}
for m in re.finditer(r"'([^']+(?:'+[^' ]*)?)' (depends on axioms: \[([^\]]*)\]|does not depend on any axioms)", out):
    found[m.group(1)] = " ".join((m.group(3) or "none").split())
rows = {}
for n in names:
    rows.setdefault(found[n], []).append(n)
text = "# Axioms used by the theorems of MANIFEST.json\n\nOutput of `#print axioms`, grouped (`tools/axioms.py`).\n"
for k in sorted(rows):
    text += f"\n## {k}\n\n" + "\n".join(f"* `{n}`" for n in rows[k]) + "\n"
(ROOT / "AXIOMS.md").write_text(text)
print({k: len(v) for k, v in rows.items()})
