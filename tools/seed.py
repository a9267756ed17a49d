#!/usr/bin/env python3
"""Seeded bugs: apply one wrong edit of the model to a scratch copy of lean/, rebuild, and report what breaks.

  seed.py bugs.json out.jsonl [id ...]

A declaration that no longer checks is reported and replaced by `sorry` in the scratch copy, and the build is repeated, until
everything builds.  The claims hit are the property theorems that failed or that depend on a failed declaration.
Nothing of this happens in the real tree."""
import json, os, re, shutil, subprocess, sys

SRC = os.environ.get("SEED_SRC", "/verif/lean")
WORK = os.environ.get("SEED_WORK", "/tmp/seed/lean")
DECL = re.compile(r"^(?:@\[[^\]]*\]\s*)?(?:private |protected |noncomputable )*(theorem|lemma|def|abbrev|instance|example|inductive|structure|class)\b\s*(\S*)")
STOP = re.compile(r"^(?:/-|@\[|theorem|lemma|def|abbrev|instance|example|inductive|structure|class|namespace|end|section|open|variable|set_option|mutual|private|protected|noncomputable|import|#)")


def sync():
    """a fresh copy of the built tree"""
    shutil.rmtree(WORK, ignore_errors=True)
    subprocess.run(["cp", "-a", SRC, WORK], check=True)


def build():
    p = subprocess.run(["nice", "-n", "10", "lake", "build"], cwd=WORK, capture_output=True, text=True)
    out = p.stdout + p.stderr
    errs = [(m.group(1), int(m.group(2)), m.group(3)) for m in
            re.finditer(r"^error: (Verif/\S+\.lean):(\d+):\d+: (.*)$", out, re.M)]
    return p.returncode == 0, errs, out


def decl_at(lines, ln):
    """(first line, end line, kind, name) of the declaration around line ln (1-based)"""
    i = ln - 1
    while i >= 0 and not DECL.match(lines[i]):
        i -= 1
    if i < 0:
        return None
    m = DECL.match(lines[i])
    j = i + 1
    while j < len(lines) and not STOP.match(lines[j]):
        j += 1
    return i, j, m.group(1), m.group(2)


def cut(text):
    """statement of a theorem: everything before the top-level := or the first alternative"""
    depth = 0
    k = 0
    while k < len(text):
        c = text[k]
        if c == "'" and text[k + 2:k + 3] == "'":
            k += 3
            continue
        if c in "([{⟨":
            depth += 1
        elif c in ")]}⟩":
            depth -= 1
        elif depth == 0 and text.startswith(":=", k):
            return text[:k]
        elif depth == 0 and text.startswith("\n  | ", k):
            return text[:k]
        k += 1
    return None


def full_name(lines, i, name):
    ns = []
    for l in lines[:i]:
        m = re.match(r"^namespace (\S+)", l)
        if m:
            ns.append(m.group(1))
        m = re.match(r"^end (\S+)", l)
        if m and ns and ns[-1] == m.group(1):
            ns.pop()
    return ".".join(ns + [name])


def run(bug):
    sync()
    path = os.path.join(WORK, "Verif", bug["file"])
    s = open(path).read()
    for old, new in bug["edits"]:
        if s.count(old) < 1:
            return {"id": bug["id"], "problem": "edit does not apply: " + old}
        s = s.replace(old, new, 1)
    open(path, "w").write(s)
    failed, examples, rounds = [], [], 0
    while rounds < 25:
        rounds += 1
        ok, errs, out = build()
        if ok:
            break
        if not errs:
            return {"id": bug["id"], "problem": "no error found", "out": out[-2000:]}
        todo = {}
        for f, ln, msg in errs:
            full = os.path.join(WORK, f)
            lines = open(full).read().split("\n")
            d = decl_at(lines, ln)
            if d is None:
                return {"id": bug["id"], "problem": "no declaration", "out": msg}
            todo.setdefault(full, {})[d[0]] = (d, msg)
        for full, ds in todo.items():
            if "/Model/" in full:
                return {"id": bug["id"], "problem": "model does not compile", "out": str(errs[:3])}
            lines = open(full).read().split("\n")
            for i in sorted(ds, reverse=True):
                (a, b, kind, name), msg = ds[i]
                text = "\n".join(lines[a:b])
                mod = full[len(WORK) + 1:]
                if kind == "example":
                    examples.append(f"{mod}:{a + 1}")
                    lines[a:b] = ["example : True := trivial"] + [""] * (b - a - 1)
                elif kind in ("theorem", "lemma"):
                    failed.append(full_name(lines, a, name))
                    head = cut(text)
                    if head is None:
                        return {"id": bug["id"], "problem": "cannot cut " + name, "failed": failed}
                    new = (head.rstrip() + " := by sorry").split("\n")
                    lines[a:b] = new + [""] * (b - a - len(new))
                else:
                    failed.append(full_name(lines, a, name))
                    return {"id": bug["id"], "problem": f"{kind} {name} does not compile", "failed": failed, "out": msg}
            open(full, "w").write("\n".join(lines))
    else:
        return {"id": bug["id"], "problem": "too many rounds", "failed": failed, "out": out[-1500:]}
    names = json.load(open("/verif/MANIFEST.json"))["claims"]
    thms = [t for c in names for t in c["theorems"]]
    chk = os.path.join(WORK, "Seedcheck.lean")
    open(chk, "w").write("import Verif\n" + "\n".join("#print axioms " + t for t in thms) + "\n")
    p = subprocess.run(["lake", "env", "lean", chk], cwd=WORK, capture_output=True, text=True)
    hit = re.findall(r"'([^']+)' depends on axioms: \[[^\]]*sorryAx", p.stdout)
    return {"id": bug["id"], "rounds": rounds, "failed": failed, "examples": examples, "hit": hit,
            "survived": not failed and not examples}


if __name__ == "__main__":
    bugs = json.load(open(sys.argv[1]))
    ids = sys.argv[3:]
    done = set()
    if os.path.exists(sys.argv[2]):
        done = {json.loads(l)["id"] for l in open(sys.argv[2])}
    for b in bugs:
        if (ids and b["id"] not in ids) or (not ids and b["id"] in done):
            continue
        r = run(b)
        with open(sys.argv[2], "a") as f:
            f.write(json.dumps(r) + "\n")
        print(r["id"], r.get("problem") or ("SURVIVED" if r["survived"] else f"{len(r['failed'])} failed, {len(r['hit'])} hit"), flush=True)
