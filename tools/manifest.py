"""Regenerate MANIFEST.json: collects the theorems named Cnn_... from lean/Verif/Props and adds status and note."""
import json, re, glob, os
root = os.path.dirname(os.path.dirname(os.path.abspath(__file__)))
notes = json.load(open(os.path.join(root, "tools", "notes.json")))
thms = {}
for f in sorted(glob.glob(os.path.join(root, "lean/Verif/Props/*.lean"))):
    text = open(f).read()
    ns = re.search(r"^namespace (\S+)", text, re.M).group(1)
    for m in re.finditer(r"^(?:@\[[^\]]*\]\s*)?theorem (C(\d\d+)_\w+)", text, re.M):
        thms.setdefault("C" + m.group(2), []).append(ns + "." + m.group(1))
claims = []
props = [json.loads(l)["id"] for l in open(os.path.join(root, "properties.jsonl")) if l.strip()]
assert len(props) == len(set(props))
for p in props:
    if p not in thms:
        print("no theorem:", p); continue
    t = thms[p]
    n = notes.get(p, {})
    if isinstance(n, str): n = {"note": n}
    status = n.get("status")
    if status is None:
        status = "partial" if any(x.endswith("_fails") or x.endswith("_partial") or "_partial" in x or "_fails" in x for x in t) else "proved"
    if status == "partial" and not n.get("note"): print("partial without note:", p)
    claims.append({"property": p, "status": status, "theorems": t, "note": n.get("note", "")})
for p in thms:
    if p not in props: print("not in properties:", p)
with open(os.path.join(root, "MANIFEST.json"), "w") as f:
    f.write('{"claims": [\n' + ",\n".join(json.dumps(c) for c in claims) + "\n]}\n")
print(len(claims), "claims")
