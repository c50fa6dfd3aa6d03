"""Writes /verif/MANIFEST.json from the property theorems in lean/Verif/Props.

A theorem called Cnn_... in namespace N is listed under property Cnn as N.Cnn_....
A property with a `_refuted` or `_partial` theorem is "partial", otherwise "proved".
NOTES holds the per-property note (what is missing, or what was found)."""
import json, pathlib, re
from manifest_notes import NOTES

root = pathlib.Path(__file__).resolve().parent.parent
claims = {}
for f in sorted((root / "lean/Verif/Props").glob("*.lean")):
    ns = []
    for line in f.read_text().splitlines():
        if m := re.match(r"namespace (\S+)", line):
            ns.append(m[1])
        elif m := re.match(r"end (\S+)", line):
            if ns and ns[-1] == m[1]:
                ns.pop()
        elif m := re.match(r"(?:private )?theorem (C\d+\w*)", line):
            cid = re.match(r"C\d+", m[1])[0]
            claims.setdefault(cid, []).append(".".join(ns + [m[1]]))
props = [json.loads(l)["id"] for l in (root / "properties.jsonl").read_text().splitlines() if l]
out = []
for cid in props:
    th = claims.get(cid, [])
    if not th:
        missing = missing + [cid] if "missing" in globals() else [cid]
        continue
    partial = any(t.endswith("_partial") or t.endswith("_refuted") for t in th)
    out.append(dict(property=cid, status="partial" if partial else "proved",
                    theorems=th, note=NOTES.get(cid, "")))
for cid in claims:
    if cid not in props:
        print("theorem for unknown property", cid)
(root / "MANIFEST.json").write_text(json.dumps({"claims": out}, indent=1) + "\n")
print("no theorem for", " ".join(globals().get("missing", [])))
print(len(out), "claims,", sum(len(c["theorems"]) for c in out), "theorems")
