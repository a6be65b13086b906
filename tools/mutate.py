#!/usr/bin/env python3
"""Run a list of mutations of the model on a scratch copy of lean/ and append one line per mutation to seeded/LOG.jsonl.

usage: mutate.py mutations.json scratchdir [--first] [--quick]
--first: stop with a mutation as soon as a theorem of the claim is lost; the lists of the record are then not complete
and the record says so ("first_failures_only").
--quick: build the modules with the theorems of the claim before all others (with --first, only these if one is lost).
mutations.json: list of {"file", "definition", "old", "new", "claim", ["comment"]}; "old" must occur once in the file.
scratchdir/lean is a copy of /verif/lean; scratchdir/deps.txt lists the constants used by each declaration.
When theorems fail, their proofs are replaced with sorry in the scratch copy and the build goes on, so that the theorems in
modules importing them are tried too.  A failed theorem makes fail every claim theorem whose proof uses it; those are
listed as well.
"""
import json, re, subprocess, sys, os, shutil, time
first = "--first" in sys.argv; quick = "--quick" in sys.argv
muts = json.load(open(sys.argv[1])); sc = sys.argv[2]
log = "/verif/seeded/LOG.jsonl"
deps = {}
for l in open(f"{sc}/deps.txt"):
    n, _, d = l.rstrip("\n").partition("\t"); deps[n] = d.split()
rev = {}
for n, ds in deps.items():
    for d in ds: rev.setdefault(d, set()).add(n)
def users(s):
    seen = set(s); st = list(s)
    while st:
        x = st.pop()
        for y in rev.get(x, ()):
            if y not in seen: seen.add(y); st.append(y)
    return seen
def enclosing(path, line):
    ls = open(path).read().split("\n")[:line]
    for l in reversed(ls):
        m = re.match(r"\s*(?:@\[[^\]]*\]\s*)?(?:private |protected |noncomputable )*(theorem|def|lemma|example|instance|abbrev|structure|inductive)\s*(\S*)", l)
        if m:
            ns = []
            for q in ls:
                a = re.match(r"namespace (\S+)", q); b = re.match(r"end (\S+)", q)
                if a: ns.append(a.group(1))
                elif b and ns and ns[-1] == b.group(1): ns.pop()
            return m.group(1), (".".join(ns + [m.group(2)]) if m.group(1) not in ("example",) else f"example@{os.path.basename(path)}:{line}")
    return "?", f"{path}:{line}"
TOP = re.compile(r"(theorem|lemma|def|example|instance|abbrev|structure|inductive|class|end|section|namespace|variable|omit|open|noncomputable|private|protected|set_option|attribute|/--|/-!|@\[|#|notation|local)")
def stub(path, lines):
    """replace the proofs of the declarations at these lines with sorry"""
    src = open(path).read().split("\n")
    for line in sorted(lines, reverse=True):
        st = min(line, len(src)) - 1
        while st >= 0 and not re.match(r"(?:@\[[^\]]*\]\s*)?(?:private |protected )*(theorem|lemma|example)\b", src[st]): st -= 1
        if st < 0: return False
        en = st + 1
        while en < len(src) and not TOP.match(src[en]): en += 1
        if line - 1 >= en: return False
        txt = "\n".join(src[st:en]); d = 0; cut = None
        for i, c in enumerate(txt):
            if c in "([{⟨": d += 1
            elif c in ")]}⟩": d -= 1
            elif d == 0 and txt.startswith(":=", i): cut = i; break
        if cut is None:
            m = re.search(r"\n  \|", txt)
            if not m: return False
            cut = m.start()
        src[st:en] = (txt[:cut] + ":= sorry\n").split("\n")
    open(path, "w").write("\n".join(src)); return True
def lost(failed): return sorted(n for n in users(failed) if re.search(r"\.C\d{2,3}_\w+$", n))
def hits(claim, down): return any((".%s_" % c) in n for n in down for c in re.findall(r"C\d{2,3}", claim))
def targets(claim):
    ids = re.findall(r"C\d{2,3}", claim); d = f"{sc}/lean/Verif/Props"
    return ["Verif.Props." + f[:-5] for f in sorted(os.listdir(d)) if f.endswith(".lean")
            and any(re.search(r"theorem %s_" % c, open(f"{d}/{f}").read()) for c in ids)]
build, kept = f"{sc}/lean/.lake/build", f"{sc}/build0"
subprocess.run(["lake", "build"], cwd=f"{sc}/lean", capture_output=True)
shutil.rmtree(kept, ignore_errors=True); shutil.copytree(build, kept, symlinks=True)
for mu in muts:
    path = f"{sc}/lean/{mu['file']}"
    src = open(path).read()
    if src.count(mu["old"]) != 1:
        print("BAD", mu["definition"], src.count(mu["old"])); continue
    open(path, "w").write(src.replace(mu["old"], mu["new"]))
    t = time.time()
    failed, ex, defs, saved = set(), set(), set(), {path: src}
    tg = targets(mu["claim"]) if quick else []
    try:
        for rnd in range(8):
            out = subprocess.run(["lake", "build"] + tg, cwd=f"{sc}/lean", capture_output=True, text=True).stdout
            errs = {}
            for m in re.finditer(r"error: (Verif/\S+\.lean):(\d+):", out):
                f = f"{sc}/lean/{m.group(1)}"; ln = int(m.group(2))
                k, n = enclosing(f, ln)
                if k == "example": ex.add(n); errs.setdefault(f, {})[n] = ln
                elif k in ("theorem", "lemma"): failed.add(n); errs.setdefault(f, {})[n] = ln
                else: defs.add(n)
            if tg and not errs and not defs: tg = []; continue
            if not errs or defs: break
            if first and hits(mu["claim"], lost(failed)): break
            for f, e in errs.items():
                saved.setdefault(f, open(f).read())
                stub(f, list(e.values()))
    finally:
        for f, o in saved.items(): open(f, "w").write(o)
        shutil.rmtree(build); shutil.copytree(kept, build, symlinks=True)
    down = lost(failed)
    rec = {"definition": mu["definition"], "file": mu["file"], "edit": mu["old"] + "  ==>  " + mu["new"],
           "claim": mu["claim"], "theorems_failed": sorted(failed), "claim_theorems_lost": down,
           "examples_failed": sorted(ex), "defs_failed": sorted(defs), "theorems_tightened": mu.get("tightened", []),
           "detected": bool(failed)}
    if first: rec["first_failures_only"] = True
    if mu.get("comment"): rec["comment"] = mu["comment"]
    open(log, "a").write(json.dumps(rec, ensure_ascii=False) + "\n")
    hit = hits(mu["claim"], down)
    print(("caught  " if hit else ("OTHER   " if failed else "SURVIVED")), mu["claim"], mu["definition"], len(failed), len(down), len(defs), "%.0fs" % (time.time() - t), flush=True)
