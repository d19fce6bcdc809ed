"""Regenerates MANIFEST.json from the theorem names in lean/Verif/Props and scripts/notes.json."""
import json, re, glob, os, collections
root = os.path.dirname(os.path.dirname(os.path.abspath(__file__)))
thms = collections.defaultdict(list)
for f in sorted(glob.glob(f"{root}/lean/Verif/Props/*.lean")):
    ns = []
    for line in open(f):
        if m := re.match(r"namespace\s+(\S+)", line):
            ns.append(m.group(1))
        elif m := re.match(r"end\s+(\S+)", line):
            if ns and ns[-1] == m.group(1):
                ns.pop()
        elif m := re.match(r"(?:@\[[^\]]*\]\s*)?theorem\s+(C(\d\d+)_\w+)", line):
            thms["C" + m.group(2)].append(".".join(ns + [m.group(1)]))
notes = json.load(open(f"{root}/scripts/notes.json"))
props = [json.loads(l) for l in open(f"{root}/properties.jsonl") if l.strip()]
ids = {p["id"] for p in props}
for c in thms:
    assert c in ids, c
claims = []
for p in props:
    c = p["id"]
    ts = thms.get(c, [])
    n = notes.get(c, {})
    if ts:
        status = n.get("status") or ("partial" if any(t.endswith(("_partial", "_violated")) for t in ts) else "proved")
    else:
        status = n.get("status", "not_applicable")
    claims.append({"property": c, "status": status, "theorems": ts, "note": n.get("note", "" if ts else "not modelled yet")})
json.dump({"claims": claims}, open(f"{root}/MANIFEST.json", "w"), indent=1, ensure_ascii=False)
imports = sorted(glob.glob(f"{root}/lean/Verif/*/*.lean"))
with open(f"{root}/lean/Verif.lean", "w") as f:
    for i in imports:
        f.write("import " + os.path.relpath(i, f"{root}/lean")[:-5].replace("/", ".") + "\n")
print(collections.Counter(c["status"] for c in claims), sum(len(c["theorems"]) for c in claims))
