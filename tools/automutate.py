#!/usr/bin/env python3
"""One-token mutants of the model: which of them does no theorem notice?

usage: automutate.py list            print the number of mutants
       automutate.py run FILE...     try the mutants of the given model files (all if none), round robin
                                     over the definitions; results are appended to /tmp/mut/results.jsonl

A mutant is "invalid" if a model file no longer compiles, "killed" if the proof of a theorem fails (failing
examples are removed and do not count), "survived" if everything builds.
"""
import hashlib, json, os, random, re, subprocess, sys, signal, time
sys.path.insert(0, os.path.dirname(__file__))
import seed

BASE = "/tmp/mut/base/lean/"
WORK = "/tmp/mut/lean/"
OUT = "/tmp/mut/results.jsonl"
seed.WORK = WORK

RULES = [
    (r"<ᶠ", "≤ᶠ"), (r"≤ᶠ", "<ᶠ"), (r" < ", " ≤ "), (r" ≤ ", " < "), (r" = ", " ≠ "),
    (r" \+ 1\b", ""), (r" \+ ", " - "), (r" - ", " + "), (r" \* ", " + "), (r" / ", " * "),
    (r"\btrue\b", "false"), (r"\bfalse\b", "true"), (r"&&", "||"), (r"\|\|", "&&"), (r"∧", "∨"), (r"∨", "∧"),
    (r"(?<=[ (\[])0\b", "1"), (r"(?<=[ (\[])1\b", "0"), (r"(?<=[ (\[])2\b", "3"),
    (r"\bif (?!let)(?!h :)(.*?) then", r"if ¬ (\1) then"),
    (r"!(?=[a-z(])", ""), (r"¬ ?", ""),
    (r"leftChild", "rightChild"), (r"rightChild", "leftChild"), (r"\bleft\b", "right"), (r"\bright\b", "left"),
    (r"\bgrad\b", "hess"), (r"\bhess\b", "grad"), (r"gradSum", "hessSum"), (r"hessSum", "gradSum"),
    (r"\btake\b", "drop"), (r"\bdrop\b", "take"), (r"\.reverse\b", ""), (r"\.lower\b", ".upper"), (r"\.upper\b", ".lower"),
    (r"\bl1\b", "l2"), (r"\bl2\b", "l1"), (r"splitGain", "coverSum"), (r"\bstartIdx\b", "stopIdx"),
    (r"\bstopIdx\b", "startIdx"), (r"\.rows\b", ".cols"), (r"\.cols\b", ".rows"), (r"\bmissingNode\b", "leftChild"),
    (r"\.fst\b", ".snd"), (r"\.ok\b(?= \()", ".panic"), (r"\bnone\b(?! =>)", "some 0"),
]
DECL = re.compile(r"^(?:private |protected |noncomputable )*(def|instance|abbrev)\s+(\S+)")
STOP = re.compile(r"^(theorem|lemma|structure|inductive|class|section|namespace|end|variable|open|/--|/-!|omit)")


def mutants(files):
    res = []
    for f in files:
        path = BASE + "Verif/Model/" + f
        lines = open(path).read().split("\n")
        cur, body, com = None, False, False
        for n, line in enumerate(lines):
            if line.startswith("/-"):
                com = True
                cur = None
            if com:
                if "-/" in line:
                    com = False
                continue
            m = DECL.match(line)
            if m:
                cur, body = m.group(2), False
            elif STOP.match(line):
                cur = None
            if cur is None:
                continue
            start = 0
            if not body:
                k = line.rfind(":=")
                if k < 0 and not line.startswith("  |"):
                    continue
                body = True
                start = k if k >= 0 else 0
            code = line.split("--")[0]
            for pat, rep in RULES:
                for mm in re.finditer(pat, code):
                    if mm.start() < start:
                        continue
                    new = code[:mm.start()] + mm.expand(rep) + code[mm.end():]
                    if new != code:
                        ident = hashlib.sha1(f"{f}:{n}:{line}:{new}".encode()).hexdigest()[:10]
                        res.append({"id": ident, "file": f, "line": n + 1, "def": cur, "old": line, "new": new})
    return res


def decl_at(path, line):
    lines = open(path).read().split("\n")
    s = line - 1
    while s >= 0 and not re.match(r"^(private |protected |noncomputable )*(theorem|lemma|example|def|instance|structure|inductive|abbrev)\b", lines[s]):
        s -= 1
    return lines[s]


def build():
    """Build until the first error; returns (ok, errors)."""
    p = subprocess.Popen(f"cd {WORK} && exec nice -n 10 lake build", shell=True, stdout=subprocess.PIPE,
                         stderr=subprocess.STDOUT, text=True, preexec_fn=os.setsid)
    errs = []
    out_ok = False
    for line in p.stdout:
        m = re.match(r"^error: (Verif/\S+\.lean):(\d+):\d+", line)
        if m:
            errs.append((m.group(1), int(m.group(2))))
            path, l = WORK + m.group(1), int(m.group(2))
            if m.group(1).startswith("Verif/Model") or not decl_at(path, l).startswith("example"):
                os.killpg(p.pid, signal.SIGKILL)
                break
        if "Build completed successfully" in line:
            out_ok = True
    p.wait()
    return out_ok, errs


def run(m):
    subprocess.run(f"mkdir -p {WORK} && rsync -a --delete {BASE} {WORK}" if shutil_which("rsync") else
                   f"rm -rf {WORK} && cp -a {BASE} {WORK}", shell=True, check=True)
    path = WORK + "Verif/Model/" + m["file"]
    lines = open(path).read().split("\n")
    assert lines[m["line"] - 1] == m["old"]
    lines[m["line"] - 1] = m["new"]
    open(path, "w").write("\n".join(lines))
    examples = []
    for rnd in range(12):
        ok, errs = build()
        if ok:
            return "survived", examples
        if not errs:
            return "odd", examples
        hard = [(f, l) for f, l in errs if f.startswith("Verif/Model") or not decl_at(WORK + f, l).startswith("example")]
        for f, l in hard:
            if f.startswith("Verif/Model"):
                return "invalid", examples
        if hard:
            f, l = hard[0]
            return "killed", [f, decl_at(WORK + f, l)[:100]]
        for f, l in sorted(set(errs), reverse=True):
            try:
                examples.append(seed.patch(WORK + f, l))
            except SystemExit:
                pass
    return "odd", examples


def shutil_which(x):
    import shutil
    return shutil.which(x)


def main():
    cmd = sys.argv[1]
    files = sys.argv[2:] or sorted(os.listdir(BASE + "Verif/Model"))
    ms = mutants(files)
    if cmd == "list":
        print(len(ms), len({(m["file"], m["def"]) for m in ms}))
        return
    done = {}
    if os.path.exists(OUT):
        for l in open(OUT):
            r = json.loads(l)
            done[r["id"]] = r
    rnd = random.Random(7)
    groups = {}
    for m in ms:
        groups.setdefault((m["file"], m["def"]), []).append(m)
    for g in groups.values():
        rnd.shuffle(g)
    order = []
    for k in range(max(map(len, groups.values()))):
        layer = [g[k] for g in groups.values() if k < len(g)]
        rnd.shuffle(layer)
        order += layer
    for m in order:
        if m["id"] in done:
            continue
        while subprocess.run("pgrep -f '[v]check' >/dev/null || test -e /tmp/mut/pause", shell=True).returncode == 0:
            time.sleep(10)
        t = time.time()
        status, info = run(m)
        m.update(status=status, info=info, secs=round(time.time() - t))
        open(OUT, "a").write(json.dumps(m, ensure_ascii=False) + "\n")
        print(status, m["file"], m["def"], m["line"], "|", m["old"].strip(), "->", m["new"].strip(), info, m["secs"], flush=True)


if __name__ == "__main__":
    main()
