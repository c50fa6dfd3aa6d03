"""Write DESIGN.md: tools/design_head.md, then tables made from the manifest, the Lean files and
the output of `#print axioms` (run with --axioms to refresh tools/axioms.json)."""
import json, os, re, subprocess, sys, glob

ROOT = os.path.dirname(os.path.dirname(os.path.abspath(__file__)))
LEAN = os.path.join(ROOT, "lean")
PROPS = os.path.join(LEAN, "Verif", "Props")

manifest = json.load(open(os.path.join(ROOT, "MANIFEST.json")))["claims"]
titles = {}
for line in open(os.path.join(ROOT, "properties.jsonl")):
    d = json.loads(line)
    titles[d["id"]] = d["title"]

where = {}
namespace = {}
for path in sorted(glob.glob(os.path.join(PROPS, "*.lean"))):
    mod = os.path.basename(path)[:-5]
    text = open(path).read()
    for m in re.finditer(r"^theorem (C\d+)_", text, re.M):
        where.setdefault(m.group(1), [])
        if mod not in where[m.group(1)]:
            where[m.group(1)].append(mod)


def refresh():
    names = [t for c in manifest for t in c["theorems"]]
    src = "import Verif\n" + "".join(f"#print axioms {n}\n" for n in names)
    tmp = "/tmp/axioms_all.lean"
    open(tmp, "w").write(src)
    out = subprocess.run(["lake", "env", "lean", tmp], cwd=LEAN, capture_output=True, text=True).stdout
    out = re.sub(r"\n\s+", " ", out)
    res = {}
    for m in re.finditer(r"'([^']+(?:'[^']*)?)' (does not depend on any axioms|depends on axioms: \[([^\]]*)\])", out):
        res[m.group(1)] = sorted(x.strip() for x in (m.group(3) or "").split(",") if x.strip())
    missing = [n for n in names if n not in res]
    print(len(res), "theorems, missing", missing)
    json.dump(res, open(os.path.join(ROOT, "tools", "axioms.json"), "w"), indent=0, sort_keys=True)


if "--axioms" in sys.argv:
    refresh()

ax = json.load(open(os.path.join(ROOT, "tools", "axioms.json")))
lines = [open(os.path.join(ROOT, "tools", "design_head.md")).read().rstrip(), ""]
lines += ["## 8. Properties, one by one", "",
          "`Props` names the file(s) under `lean/Verif/Props`; the model used is the file of the same name under",
          "`lean/Verif/Model` unless the file imports others. No note: proved as stated in `properties.jsonl`.", "",
          "| id | property | status | Props | note |", "|----|----------|--------|-------|------|"]
for c in sorted(manifest, key=lambda c: int(c["property"][1:])):
    note = c.get("note", "").replace("|", "\\|")
    lines.append(f"| {c['property']} | {titles[c['property']]} | {c['status']} | {', '.join(where.get(c['property'], []))} | {note} |")
lines += ["", "## 9. Axioms of each theorem", "",
          "As printed by `#print axioms` for every theorem of MANIFEST.json.", ""]
groups = {}
for n, a in ax.items():
    groups.setdefault(tuple(a), []).append(n)
for a in sorted(groups, key=lambda a: (len(a), a)):
    names = sorted(groups[a], key=lambda n: (int(re.search(r"C(\d+)", n).group(1)), n))
    lines.append(f"* **{', '.join(a) if a else 'none'}** ({len(names)}): " + ", ".join("`" + n.replace("Verif.", "", 1) + "`" for n in names))
    lines.append("")
open(os.path.join(ROOT, "DESIGN.md"), "w").write("\n".join(lines).rstrip() + "\n")
print(len(lines), "lines")
