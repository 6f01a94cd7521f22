#!/usr/bin/env python3
"""Check the citations of the model: every definition has a comment with a citation of the form file.go:lines, the files exist in /repo, the
lines are in the file, and a name in backquotes that is a Go identifier of the file occurs in the cited lines.

A file is given by a suffix of its path; `lines N` and a bare `:N-M` go with the file cited last in the same comment or module header.
"""
import os, re, sys

ROOT = os.path.dirname(os.path.dirname(os.path.abspath(__file__)))
REPO = "/repo"
files = []
for d, _, fs in os.walk(REPO):
    for f in fs:
        if f.endswith(".go") and not f.endswith("_test.go") and "/examples/" not in d + "/" and "/tests/" not in d + "/" and "/testfiles" not in d:
            files.append(os.path.relpath(os.path.join(d, f), REPO))
src = {f: open(os.path.join(REPO, f)).read().split("\n") for f in files}

def resolve(name):
    """The path from the top, or a suffix of only one path."""
    if name in src:
        return name
    c = [f for f in files if f.endswith("/" + name)]
    return c[0] if len(c) == 1 else None

def extent(f, sym):
    """First line of the comment, first and last line of the function or type."""
    for i, l in enumerate(src[f]):
        if re.match(r"(func (\([^)]*\) )?|type )" + re.escape(sym) + r"\b", l):
            c = i
            while c and src[f][c - 1].startswith("//"):
                c -= 1
            j = i
            if l.endswith("{") or l.endswith("("):
                while src[f][j] not in ("}", ")"):
                    j += 1
            return c + 1, i + 1, j + 1
    return None

bad = 0
def say(*a):
    global bad
    bad += 1
    print(*a)

n = 0
cited = {f: set() for f in files}
model = os.path.join(ROOT, "lean/Verif/Model")
for m in sorted(os.listdir(model)) + ["../Types.lean"]:
    t = open(os.path.join(model, m)).read()
    for g in re.finditer(r"(/--(?:(?!-/).)*-/\n)?((?:@\[[^\]]*\]\s*)?(?:def|structure|inductive|abbrev) (\S+))", t, re.S):
        doc, name = g.group(1) or "", g.group(3)
        n += 1
        cites = list(re.finditer(r"([A-Za-z/]+\.go)(?::(\d+(?:-\d+)?(?:, \d+(?:-\d+)?)*))?", doc))
        if not cites:
            say("no citation:", m, name)
            continue
        for c in cites:
            f = resolve(c.group(1))
            if not f:
                say("no such file, or several:", m, name, c.group(0))
                continue
            if not c.group(2):
                continue
            rs = [tuple(int(x) for x in (r.split("-") + [r])[:2]) for r in c.group(2).split(", ")]
            for a, b in rs:
                if not a <= b <= len(src[f]):
                    say("lines not in the file:", m, name, c.group(0))
                cited[f].update(range(a, b + 1))
            s = re.match(r" `([A-Za-z.]+)`", doc[c.end():])
            if s:
                s = s.group(1).split(".")[-1]
                e = extent(f, s)
                if e and len(rs) == 1 and rs[0][0] != rs[0][1] and not (e[0] <= rs[0][0] <= e[1] and rs[0][1] == e[2]):
                    say("lines of the symbol:", m, name, c.group(0), s, f"{e[1]}-{e[2]}")
                if not e and not any(s in "\n".join(src[f][a - 1:b]) for a, b in rs):
                    say("symbol not in the cited lines:", m, name, c.group(0), s)
print(n, "definitions,", bad, "problems")
if "-v" in sys.argv:
    for f in files:
        code = [i for i, l in enumerate(src[f], 1) if l.strip() and not l.strip().startswith("//") and l.strip() not in "{}()"]
        un = [i for i in code if i not in cited[f]]
        print(f, f"{len(code) - len(un)}/{len(code)}")
