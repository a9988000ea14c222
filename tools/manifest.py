"""Builds MANIFEST.json from the theorem names in lean/Verif/Props and the notes below."""
import json, os, re, glob
ROOT = os.path.join(os.path.dirname(os.path.abspath(__file__)), "..")
NOTES = json.load(open(os.path.join(ROOT, "tools", "notes.json")))
thms = {}
for f in sorted(glob.glob(os.path.join(ROOT, "lean/Verif/Props/*.lean"))):
    ns = []
    for line in open(f):
        m = re.match(r"namespace (\S+)", line)
        if m: ns = m.group(1)
        m = re.match(r"theorem ((C\d+)_\S+)", line)
        if m: thms.setdefault(m.group(2), []).append(ns + "." + m.group(1))
claims = []
for line in open(os.path.join(ROOT, "properties.jsonl")):
    i = json.loads(line)["id"]
    if i not in thms: 
        if i in NOTES: claims.append(dict(property=i, status=NOTES[i][0], theorems=[], note=NOTES[i][1]))
        continue
    st, note = NOTES.get(i, ["proved", ""])
    claims.append(dict(property=i, status=st, theorems=thms[i], note=note))
    if st == "proved" and any(t.endswith("_partial") or t.endswith("_refuted") for t in thms[i]):
        print("warning: partial/refuted theorem under proved", i)
json.dump(dict(claims=claims), open(os.path.join(ROOT, "MANIFEST.json"), "w"), indent=1)
design = open(os.path.join(ROOT, "DESIGN.md")).read()
mark = "## 5. Claims that do not hold as stated\n"
design = design.split(mark)[0].rstrip() + "\n\n" + mark + """
For these claims the code as it stands violates the full statement, or the model covers only part of it. What is proved, and the witness
of the violation where there is one (theorems named `..._refuted`):

""" + "\n".join("* **%s** %s" % (c["property"], c["note"]) for c in claims if c["note"]) + "\n"
open(os.path.join(ROOT, "DESIGN.md"), "w").write(design)
print(len(claims), "claims;", sum(len(c["theorems"]) for c in claims), "theorems; partial:", [c["property"] for c in claims if c["status"] != "proved"])
