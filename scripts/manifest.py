"""Regenerate lean/Verif.lean and MANIFEST.json from the theorem names in lean/Verif/Props."""
import json, pathlib, re
root = pathlib.Path(__file__).resolve().parent.parent
lean = root / "lean"
mods = sorted(str(p.relative_to(lean))[:-5].replace("/", ".") for p in (lean / "Verif").rglob("*.lean"))
(lean / "Verif.lean").write_text("".join(f"import {m}\n" for m in mods))
thms = {}
for p in sorted((lean / "Verif" / "Props").glob("*.lean")):
    ns = []
    for line in p.read_text().splitlines():
        m = re.match(r"namespace (\S+)", line)
        if m: ns.append(m.group(1))
        m = re.match(r"end (\S+)", line)
        if m and ns and ns[-1] == m.group(1): ns.pop()
        m = re.match(r"theorem ((C\d\d)_\S+)", line)
        if m: thms.setdefault(m.group(2), []).append(".".join(ns + [m.group(1)]))
notes = json.loads((root / "scripts" / "notes.json").read_text())
claims = []
for line in (root / "properties.jsonl").read_text().splitlines():
    c = json.loads(line)["id"]
    if c in thms:
        n = notes.get(c, {})
        claims.append({"property": c, "status": n.get("status", "proved"), "theorems": thms[c], "note": n.get("note", "")})
    elif c in notes:
        claims.append({"property": c, "status": notes[c]["status"], "theorems": [], "note": notes[c]["note"]})
(root / "MANIFEST.json").write_text(json.dumps({"claims": claims}, indent=1) + "\n")
print(len(mods), "modules;", len(claims), "claims;", sum(len(c["theorems"]) for c in claims), "theorems")
missing = [json.loads(l)["id"] for l in (root / "properties.jsonl").read_text().splitlines()
           if json.loads(l)["id"] not in {c["property"] for c in claims}]
print("missing:", missing)
