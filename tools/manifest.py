#!/usr/bin/env python3
"""Regenerate MANIFEST.json: theorem names are read from lean/Verif/Props, status and notes from
tools/status.json ({"C01": {"status": "proved", "note": "..."}})."""
import json, re, pathlib
root = pathlib.Path(__file__).resolve().parent.parent
props = [json.loads(l) for l in open(root / "properties.jsonl") if l.strip()]
status = json.load(open(root / "tools" / "status.json"))
names = {}
for f in sorted((root / "lean" / "Verif" / "Props").glob("*.lean")):
    stack = []
    for line in open(f):
        m = re.match(r"namespace (\S+)", line)
        if m:
            stack.append(m.group(1)); continue
        m = re.match(r"section\b\s*(\S*)", line) or re.match(r"noncomputable section\b\s*(\S*)", line)
        if m:
            stack.append(None); continue
        if re.match(r"end\b", line):
            if stack: stack.pop()
            continue
        m = re.match(r"(?:private )?theorem (C\d\d+)_(\S+)", line)
        if m:
            ns = ".".join(s for s in stack if s)
            names.setdefault(m.group(1), []).append(f"{ns}.{m.group(1)}_{m.group(2)}")
claims = []
for p in props:
    i = p["id"]
    st = status.get(i)
    if st is None:
        if i in names: raise SystemExit(f"no status for {i}")
        continue
    claims.append({"property": i, "status": st["status"], "theorems": names.get(i, []), "note": st["note"]})
json.dump({"claims": claims}, open(root / "MANIFEST.json", "w"), indent=1, ensure_ascii=False)
print(len(claims), "claims", sum(len(c["theorems"]) for c in claims), "theorems")
chk = root / "lean" / ".axioms.lean"
with open("/tmp/work/axioms.lean", "w") as g:
    g.write("import Verif\n")
    for c in claims:
        for t in c["theorems"]: g.write(f"#print axioms {t}\n")
