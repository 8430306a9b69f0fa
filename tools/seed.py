#!/usr/bin/env python3
"""Seed one bug in a scratch copy of the model and report which theorems no longer hold.

usage: seed.py ID   (ID is an entry of seeded/mutants.json)

The scratch copy is rebuilt; a theorem whose proof fails is replaced by `sorry` there, so that modules
above it still build, and the property theorems that depend on `sorry` in the end are reported.
"""
import json, os, re, subprocess, sys

SRC = "/tmp/seed/base/lean/"
WORK = "/tmp/seed/lean/"
OUT = "/tmp/seed/results/"
TOP = re.compile(r"^(theorem|lemma|private|protected|def|instance|example|structure|inductive|abbrev|class|"
                 r"/--|/-!|end\b|section|namespace|variable|omit|set_option|@\[|open|local|macro|noncomputable|attribute|deriving|mutual)")


def sh(cmd, timeout=4000):
    p = subprocess.run(cmd, shell=True, stdout=subprocess.PIPE, stderr=subprocess.STDOUT, text=True, timeout=timeout)
    return p.stdout


def proof_start(text):
    """Offset of the top-level `:=`, `where` or first `|` of a theorem."""
    depth = 0
    i = 0
    while i < len(text):
        c = text[i]
        if c == "'" and text[i + 2:i + 3] == "'":
            i += 3
            continue
        if c in "([{⟨":
            depth += 1
        elif c in ")]}⟩":
            depth -= 1
        elif depth == 0:
            if text.startswith(":=", i) and not text[text.rfind("\n", 0, i) + 1:i].lstrip().startswith("let "):
                return i
            if text.startswith(" where\n", i):
                return i
            if text.startswith("\n  | ", i):
                return i
        i += 1
    return None


def patch(path, line):
    lines = open(path).read().split("\n")
    s = line - 1
    while s >= 0 and not re.match(r"^(private |protected |noncomputable )*(theorem|lemma|example|def|instance|structure|inductive|abbrev)\b", lines[s]):
        s -= 1
    e = s + 1
    while e < len(lines) and not TOP.match(lines[e]):
        e += 1
    decl = "\n".join(lines[s:e])
    m = re.match(r"^(?:private |protected )*(theorem|lemma|example)\b\s*(\S*)", decl)
    if not m:
        raise SystemExit(f"cannot patch {path}:{line}: {lines[s]}")
    if m.group(1) == "example":
        name = f"example at {os.path.relpath(path, WORK)}"
        # keep line numbers
        lines[s:e] = ["--"] * (e - s)
        k = s - 1
        # drop the doc comment of the example as well
        while k >= 0 and not lines[k].startswith("/--") and lines[k].strip() != "":
            k -= 1
        if k >= 0 and lines[k].startswith("/--"):
            for j in range(k, s):
                lines[j] = "--"
    else:
        name = m.group(2)
        p = proof_start(decl)
        if p is None or ":= by sorry" in decl:
            raise SystemExit(f"cannot patch {path}:{line}: {name}")
        new = decl[:p] + " := by sorry"
        pad = decl.count("\n") - new.count("\n")
        lines[s:e] = (new + "\n" * pad).split("\n")
    open(path, "w").write("\n".join(lines))
    return name


def main(mid):
    muts = {m["id"]: m for m in json.load(open("/verif/seeded/mutants.json"))}
    m = muts[mid]
    os.makedirs(OUT, exist_ok=True)
    head = sh("git -C /verif rev-parse HEAD").strip()
    mark = "/tmp/seed/base/HEAD"
    if not os.path.exists(mark) or open(mark).read() != head:
        sh("mkdir -p /tmp/seed/new && rm -rf /tmp/seed/new/* && git -C /verif archive HEAD lean | tar x -C /tmp/seed/new")
        sh(f"mkdir -p {SRC} && rm -rf {SRC}Verif && cp -r /tmp/seed/new/lean/. {SRC}")
        out = sh(f"cd {SRC} && nice -n 15 lake build 2>&1")
        assert "Build completed successfully" in out, "base does not build"
        open(mark, "w").write(head)
    sh(f"rm -rf {WORK} && cp -a {SRC} {WORK}")
    for ed in m["edits"]:
        path = WORK + "Verif/" + ed["file"]
        t = open(path).read()
        n = ed.get("count", 1)
        assert t.count(ed["old"]) == n, (mid, t.count(ed["old"]))
        open(path, "w").write(t.replace(ed["old"], ed["new"]))
    patched = []
    note = ""
    for rnd in range(25):
        out = sh(f"cd {WORK} && nice -n 15 lake build 2>&1")
        errs = {}
        for f, l in re.findall(r"^error: (Verif/\S+\.lean):(\d+):\d+", out, re.M):
            errs.setdefault(f, set()).add(int(l))
        if not errs:
            if "Build completed successfully" not in out:
                note = "build ended without success: " + out[-800:]
            break
        bad = [f for f in errs if f.startswith("Verif/Model")]
        if bad:
            note = "model does not compile: " + "\n".join(re.findall(r"^error: .*", out, re.M)[:5])
            break
        before = len(patched)
        try:
            for f, ls in errs.items():
                done = set()
                for l in sorted(ls, reverse=True):
                    # several errors of one declaration: patch once
                    try:
                        nm = patch(WORK + f, l)
                    except SystemExit as x:
                        if any(":= by sorry" in str(d) for d in done):
                            continue
                        if "cannot patch" in str(x) and done:
                            continue
                        raise
                    done.add(nm + ":= by sorry")
                    patched.append((f, nm))
        except SystemExit as x:
            note = str(x)
            break
        if len(patched) == before:
            note = 'stuck: ' + str(errs)[:300]
            break
    axioms = {}
    for nm, ax in re.findall(r"'(?:Verif\.)?(\S+)' depends on axioms: \[([^\]]*)\]", out):
        axioms[nm] = ax
    for nm in re.findall(r"'(?:Verif\.)?(\S+)' does not depend on any axioms", out):
        axioms[nm] = ""
    failed = sorted(n for n, a in axioms.items() if "sorryAx" in a)
    direct = sorted({n for _, n in patched})
    json.dump({"id": mid, "patched": patched, "failed": failed, "direct": direct, "note": note,
               "audited": len(axioms), "rounds": rnd}, open(OUT + mid + ".json", "w"), indent=1)
    print(mid, "patched:", len(patched), "failed:", len(failed), note[:300])


if __name__ == "__main__":
    for i in sys.argv[1:]:
        try:
            main(i)
        except BaseException as e:
            print(i, "driver error", repr(e)[:500])
