"""Random small edits of the model, run against the property theorems alone.

The scratch copy keeps of Proofs and Props only what the theorems of MANIFEST.json that are not refutations need (by name,
transitively), so that examples and concrete witnesses do not count. The first failing theorem ends a run.

usage: automut.py core                    make and build the scratch copy
       automut.py gen SEED N OUT [FILES]  choose up to N edits per definition
       automut.py run IN OUT [start]      run them; OUT gets one JSON line per edit"""
import json, os, random, re, subprocess, sys, signal, time
ROOT = os.path.abspath(os.path.join(os.path.dirname(os.path.abspath(__file__)), ".."))
SCR = "/tmp/am/lean"
HEAD = re.compile(r"(?:private |protected |noncomputable |@\[[^\]]*\] *)*(theorem|lemma|def|abbrev|instance|example|inductive|structure)\b *([^\s:({\[]*)")
START = re.compile(r"(?:private |protected |noncomputable |@\[|theorem |lemma |def |abbrev |instance |example |inductive |structure |namespace |end |open |variable |section|include |omit |set_option |import |/-[-!]|#|attribute |mutual|deriving |local |scoped |universe |infix|notation |macro )")
def commands(text):
    """Top level commands as lists of lines; a doc comment or `set_option .. in` belongs to what follows."""
    out, cur, pending, incomment, mutual = [], [], False, False, False
    for l in text.split("\n"):
        start = not incomment and START.match(l) is not None
        if start and not pending and not mutual:
            if cur: out.append(cur)
            cur = []
        if start:
            pending = l.startswith("/--") or l.startswith("@[") and not HEAD.match(l) or (l.startswith("set_option") or l.startswith("open ") or l.startswith("include ") or l.startswith("omit ")) and l.rstrip().endswith(" in")
            if l.startswith("mutual"): mutual = True
        cur.append(l)
        if not incomment and l.lstrip().startswith("/-") and "-/" not in l: incomment = True
        elif incomment and "-/" in l: incomment = False
        if mutual and l.rstrip() == "end": mutual = False
    if cur: out.append(cur)
    return out
def heads(cmd):
    return [(m.group(1), re.sub("[«»]", "", m.group(2))) for l in cmd for m in [HEAD.match(l)] if m]
def core():
    subprocess.check_call("rm -rf /tmp/am/lean; mkdir -p /tmp/am; cp -a %s/lean /tmp/am/lean" % ROOT, shell=True)
    wanted = {t.split(".")[-1] for c in json.load(open(ROOT + "/MANIFEST.json"))["claims"] for t in c["theorems"] if "refuted" not in t}
    files = {}
    for d in ("Proofs", "Props"):
        for f in sorted(os.listdir(SCR + "/Verif/" + d)):
            p = "%s/Verif/%s/%s" % (SCR, d, f)
            files[p] = commands(open(p).read())
    deps = {}
    for p, cs in files.items():
        for c in cs:
            h = heads(c)
            if h and all(k in ("theorem", "lemma", "def", "abbrev", "inductive", "structure") for k, _ in h):
                w = set(re.findall(r"[\w?'!₂.]+", "\n".join(c)))
                w |= {y for x in w for y in x.split(".")}
                for _, n in h: deps.setdefault(n.split(".")[-1], set()).update(w)
            elif any(k == "instance" for k, _ in h) or not h and any(re.match(r"(local |scoped |macro|attribute)", l) for l in c):
                w = set(re.findall(r"[\w?'!₂.]+", "\n".join(c)))
                wanted |= {y for x in w for y in x.split(".")}
    todo = list(wanted)
    while todo:
        x = todo.pop()
        for y in deps.get(x, ()):
            if y not in wanted: wanted.add(y); todo.append(y)
    n = m = 0
    for p, cs in files.items():
        out = []
        for c in cs:
            h = heads(c)
            if h and h[0][0] == "example": m += 1; continue
            if h and all(k in ("theorem", "lemma", "def", "abbrev", "inductive", "structure") for k, _ in h) and not any(x.split(".")[-1] in wanted for _, x in h): m += 1; continue
            n += 1; out += c
        open(p, "w").write("\n".join(out))
    print("kept", n, "commands, dropped", m)
    subprocess.call(["lake", "build"], cwd=SCR)
OPS = [(r" < ", [" ≤ "]), (r" ≤ ", [" < "]), (r" > ", [" ≥ "]), (r" ≥ ", [" > "]), (r" == ", [" != "]), (r" != ", [" == "]), (r" && ", [" || "]), (r" \|\| ", [" && "]),
  (r" ∧ ", [" ∨ "]), (r" ∨ ", [" ∧ "]), (r"\btrue\b", ["false"]), (r"\bfalse\b", ["true"]), (r"(?<![\w.])\d+\b(?!\")", ["INC"]), (r'c!"[^"]*"', ["STR"]), (r"'[a-zA-Z0-9]'", ["CHR"]),
  (r"\.reverse\b", [""]), (r"\.drop 1\b", [""]), (r"\.dropLast\b", [""]), (r"\.tail\b", [""]), (r"\.map L\.lower\b", [""]), (r"\.error \.(\w+)", ["ERR"]), (r"!(?=[a-zA-Z(])", [""]),
  (r"\bif [^\n]*? then", ["if False then"]), (r" = (?=[^\n]*then)", [" ≠ "]), (r"\.head\?", [".getLast?"]), (r"\.getLast\?", [".head?"]), (r" \+ ", [" - "]), (r" - ", [" + "]), (r"\.none\b", [".bool true"]), (r"\bList\.all\b|\.all\b", [".any"]), (r"\.any\b", [".all"])]
def edits(body):
    out = []
    for pat, reps in OPS:
        for m in re.finditer(pat, body):
            for r in reps:
                t = m.group(0)
                if r == "INC": n = str(int(t) + 1)
                elif r == "STR": n = 'c!"' + t[3:-1] + 'x"'
                elif r == "CHR": n = "'%s'" % chr(ord(t[1]) + 1)
                elif r == "ERR": n = ".error .typeError" if m.group(1) != "typeError" else ".error .valueError"
                else: n = r
                out.append((m.start(), m.end(), n))
    return out
def gen(seed, n, outp, only):
    rnd = random.Random(seed)
    res = []
    for d in ("Py", "Model"):
        for f in sorted(os.listdir(ROOT + "/lean/Verif/" + d)):
            rel = "Verif/%s/%s" % (d, f)
            if only and f[:-5] not in only: continue
            text = open(ROOT + "/lean/" + rel).read()
            pos = 0
            for c in commands(text):
                block = "\n".join(c)
                start = text.index(block, pos); pos = start + len(block)
                h = heads(c)
                if not h or h[0][0] not in ("def", "abbrev"): continue
                m = HEAD.search(block, block.index(c[next(i for i, l in enumerate(c) if HEAD.match(l))]))
                off = m.end()
                b = block[off:]
                k = b.find(":=")
                k2 = b.find("\n  |")
                k = k + 2 if k >= 0 and (k2 < 0 or k < k2) else (k2 if k2 >= 0 else 0)
                es = edits(b[k:])
                rnd.shuffle(es)
                for (i, j, new) in es[:n]:
                    a = start + off + k
                    res.append(dict(file=rel, definition=h[0][1], at=a + i, to=a + j, old=text[a + i:a + j], new=new, line=text.count("\n", 0, a + i) + 1,
                        context=text[text.rfind("\n", 0, a + i) + 1:text.find("\n", a + j)].strip()))
    json.dump(res, open(outp, "w"), ensure_ascii=False)
    print(len(res), "edits")
def enclosing(path, line):
    name = "?"
    for i, l in enumerate(open(path), 1):
        if i > line: break
        m = HEAD.match(l)
        if m: name = m.group(2) or m.group(1)
    return name
def build():
    p = subprocess.Popen(["nice", "-n", "10", "lake", "build"], cwd=SCR, stdout=subprocess.PIPE, stderr=subprocess.STDOUT, text=True, start_new_session=True)
    hit = None
    for l in p.stdout:
        m = re.match(r"error: (Verif/\S+\.lean):(\d+):", l)
        if m:
            hit = (m.group(1), int(m.group(2)))
            os.killpg(p.pid, signal.SIGKILL)
            break
    p.wait()
    return p.returncode, hit
def run(inp, outp, start):
    es = json.load(open(inp))
    for i, e in enumerate(es):
        if i < start: continue
        path = SCR + "/" + e["file"]
        src = open(path).read()
        assert src[e["at"]:e["to"]] == e["old"]
        open(path, "w").write(src[:e["at"]] + e["new"] + src[e["to"]:])
        t = time.time()
        rc, hit = build()
        st = "SURVIVED" if rc == 0 else "invalid" if hit and "/Model/" in hit[0] or hit and "/Py/" in hit[0] or hit and "/Spec/" in hit[0] else "killed"
        e = dict(e, i=i, status=st, by=hit and "%s:%s" % (hit[0], enclosing(SCR + "/" + hit[0], hit[1])), secs=round(time.time() - t))
        open(path, "w").write(src)
        with open(outp, "a") as f: f.write(json.dumps(e, ensure_ascii=False) + "\n")
    build()
if __name__ == "__main__":
    if sys.argv[1] == "core": core()
    elif sys.argv[1] == "gen": gen(int(sys.argv[2]), int(sys.argv[3]), sys.argv[4], sys.argv[5:])
    else: run(sys.argv[2], sys.argv[3], int(sys.argv[4]) if len(sys.argv) > 4 else 0)
