"""Runs wrong programs against the theorems, in a scratch copy of the Lean project.

usage: mutate.py FILE.json [start]    each entry: {"file", "old", "new", "definition", "edit", "claim", "tightened"(optional)}
Appends one line per entry to seeded/LOG.jsonl (theorems that failed, theorems tightened)."""
import json, os, re, subprocess, sys, shutil
ROOT = os.path.abspath(os.path.join(os.path.dirname(os.path.abspath(__file__)), ".."))
SCR = "/tmp/mut/lean"
def sync():
    os.makedirs(SCR, exist_ok=True)
    subprocess.check_call(["rsync", "-a", "--delete", ROOT + "/lean/", SCR + "/"]) if shutil.which("rsync") else \
        subprocess.check_call("rm -rf /tmp/mut && mkdir -p /tmp/mut && cp -a %s/lean /tmp/mut/lean" % ROOT, shell=True)
def enclosing(path, line):
    name = "?"
    for i, l in enumerate(open(path), 1):
        if i > line: break
        m = re.match(r"\s*(?:private |protected |@\[[^\]]*\] *)*(theorem|def|lemma|instance|example)\b *([^\s:({\[]*)", l)
        if m: name = m.group(2) or m.group(1)
    return name
def blocks(base):
    """(file, theorem) -> text, for every theorem in Proofs and Props."""
    out = {}
    for d in ("Proofs", "Props"):
        for f in sorted(os.listdir(os.path.join(base, "Verif", d))):
            cur = None
            for l in open(os.path.join(base, "Verif", d, f)):
                m = re.match(r"(?:private |protected |@\[[^\]]*\] *)*(theorem|lemma|def|instance|example)\b *([^\s:({\[]*)", l)
                if m: cur = (d + "/" + f[:-5], m.group(2)); out.setdefault(cur, "")
                if cur: out[cur] += l
    return out
def dependents(failed, base):
    """Property theorems whose proofs use one of the failed lemmas (by name, transitively)."""
    b = blocks(base)
    words = {k: set(re.findall(r"[\w?'!.]+", t)) for k, t in b.items()}
    words = {k: w | {x.split(".")[-1] for x in w} for k, w in words.items()}
    bad = {f.split(":")[1] for f in failed}
    stem = {f.split(":")[0].split("/")[1] for f in failed}
    changed = True
    while changed:
        changed = False
        for k, w in words.items():
            if k[1] and k[1] not in bad and w & bad:
                bad.add(k[1]); changed = True
    return sorted(x for x in bad if re.match(r"C\d\d", x))
def run():
    p = subprocess.run(["lake", "build"], cwd=SCR, capture_output=True, text=True)
    out = p.stdout + p.stderr
    failed = []
    for m in re.finditer(r"error: (Verif/\S+\.lean):(\d+):", out):
        n = m.group(1).replace("Verif/", "").replace(".lean", "") + ":" + enclosing(os.path.join(SCR, m.group(1)), int(m.group(2)))
        if n not in failed: failed.append(n)
    return p.returncode, failed, out
if __name__ == "__main__":
    entries = json.load(open(sys.argv[1]))
    start = int(sys.argv[2]) if len(sys.argv) > 2 else 0
    sync()
    for i, e in enumerate(entries):
        if i < start: continue
        path = os.path.join(SCR, e["file"])
        src = open(path).read()
        if src.count(e["old"]) != 1:
            print(i, "PATTERN COUNT", src.count(e["old"]), e["edit"]); continue
        open(path, "w").write(src.replace(e["old"], e["new"]))
        rc, failed, out = run()
        open(path, "w").write(src)
        st = "killed" if rc else "SURVIVED"
        print(i, st, e["edit"], "->", failed[:8], flush=True)
        if rc and not failed: print(out[-2000:])
        if any(f.startswith("Model/") or f.startswith("Spec/") for f in failed):
            print("   MODEL DOES NOT BUILD", out[:1500]); continue
        rec = dict(definition=e["definition"], edit=e["edit"], claim=e["claim"], failed=failed, properties_no_longer_proved=dependents(failed, SCR), tightened=e.get("tightened", []))
        if e.get("note"): rec["note"] = e["note"]
        if rc or e.get("log_survivor"):
            with open(ROOT + "/seeded/LOG.jsonl", "a") as f: f.write(json.dumps(rec) + "\n")
    run()
