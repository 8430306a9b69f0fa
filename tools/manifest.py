"""Write MANIFEST.json and lean/Verif/Audit.lean from claims.json-like data below."""
import json, re, glob, os

ROOT = os.path.dirname(os.path.dirname(os.path.abspath(__file__)))
claims = json.load(open(os.path.join(ROOT, "tools", "claims.json")))
props = [json.loads(l)["id"] for l in open(os.path.join(ROOT, "properties.jsonl"))]
names = {}
for f in sorted(glob.glob(os.path.join(ROOT, "lean/Verif/**/*.lean"), recursive=True)):
    if f.endswith("Audit.lean"):
        continue
    for m in re.finditer(r"^\s*(?:private\s+)?theorem\s+([^\s:({\[]+)", open(f).read(), re.M):
        names[m.group(1)] = f
out = []
used = set()
for p in props:
    c = claims.get(p)
    # every theorem named after the property belongs to the claim
    ths = sorted(n for n in names if re.match(p + r"_", n) and "/Props/" in names[n])
    used.update(ths)
    if c is None:
        assert not ths, (p, "theorems without a claim", ths)
        continue
    extra = c.get("theorems", [])
    for t in extra:
        assert t in names, (p, t)
    used.update(extra)
    out.append({"property": p, "status": c["status"],
                "theorems": ["Verif." + t for t in ths + [t for t in extra if t not in ths]],
                "note": c["note"]})
json.dump({"claims": out}, open(os.path.join(ROOT, "MANIFEST.json"), "w"), indent=1, ensure_ascii=False)
open(os.path.join(ROOT, "MANIFEST.json"), "a").write("\n")
mods = sorted({names[t] for t in used})
with open(os.path.join(ROOT, "lean/Verif/Audit.lean"), "w") as g:
    for m in mods:
        g.write("import " + os.path.relpath(m, os.path.join(ROOT, "lean"))[:-5].replace("/", ".") + "\n")
    g.write("\n/-!\n# Axioms of every property theorem\n-/\n\n")
    for t in sorted(used):
        g.write(f"#print axioms Verif.{t}\n")
print(len(out), "claims,", len(used), "theorems; missing:", [p for p in props if p not in claims])
