#!/usr/bin/env python3
"""Mutation testing of the theorems.

usage: mutate.py SPEC.json OUT.jsonl

SPEC.json is a list of {"file", "def", "old", "new", "edit", "claim", "expect"}: in a scratch copy of /verif/lean the
text `old` (which must occur exactly once after the definition `def`) is replaced by `new`.  The copy is rebuilt; every
theorem that fails is replaced by `sorry` so that the modules behind it are checked too.  A manifest theorem counts as
broken if it fails itself or depends on a theorem that fails.  `expect` lists the properties that must break.  Only the
modules with the theorems of these properties are rebuilt (all with MUT_ALL=1), until every one of them is broken or the
build succeeds.
"""
import json, os, re, shutil, subprocess, sys

SCRATCH = os.environ.get("MUT_DIR", "/tmp/mut")
SRC = "/verif/lean"
DECL = re.compile(r"^(?:@\[[^\]]*\]\s*)?(?:private |protected |noncomputable )*(theorem|lemma|example|def|structure|instance|inductive|abbrev|class)\b\s*([^\s:({\[]*)")
TOP = re.compile(r"^(?:/--|/-!|@\[|theorem|lemma|example|def|noncomputable|private|protected|structure|instance|inductive|abbrev|class|namespace|section|end|open|variable|set_option|attribute|omit|include)\b|^/-")

def decl_at(lines, ln):
    """(start, end, kind, name) of the declaration containing the 1-based line ln"""
    i = ln - 1
    while i >= 0 and not DECL.match(lines[i]):
        i -= 1
    if i < 0:
        return None
    m = DECL.match(lines[i])
    j = i + 1
    while j < len(lines) and not TOP.match(lines[j]):
        j += 1
    return i, j, m.group(1), m.group(2)

def sorry_out(text):
    """replace the proof in the text of a theorem"""
    depth, k, n = 0, 0, len(text)
    while k < n:
        c = text[k]
        if c in "([{⟨":
            depth += 1
        elif c in ")]}⟩":
            depth -= 1
        elif depth == 0 and text.startswith(":=", k):
            line = text[text.rfind("\n", 0, k) + 1:k]
            if not re.search(r"\b(let|have)\b[^;]*$", line):
                return text[:k] + ":= sorry\n\n"
        elif depth == 0 and text.startswith("\n  | ", k):
            return text[:k] + " := sorry\n\n"
        k += 1
    return None

def build(lean, targets=()):
    r = subprocess.run(["nice", "-n", "10", "taskset", "-c", os.environ.get("MUT_CPUS", "0-3"), "lake", "build", *targets],
                       cwd=lean, capture_output=True, text=True)
    out = r.stdout + r.stderr
    errs = set()
    for m in re.finditer(r"^error: (Verif/[^:\n]*\.lean):(\d+):\d+:", out, re.M):
        errs.add((m.group(1), int(m.group(2))))
    return r.returncode, errs, out

def run(spec):
    lean = os.path.join(SCRATCH, "lean")
    if os.path.exists(lean):
        shutil.rmtree(lean)
    subprocess.check_call(["cp", "-a", os.path.join(SCRATCH, "pristine"), lean])
    path = os.path.join(lean, spec["file"])
    text = open(path).read()
    at = text.index(spec["def"]) if spec.get("def") else 0
    k = text.find(spec["old"], at)
    if k < 0:
        return {"status": "not found"}
    text = text[:k] + spec["new"] + text[k + len(spec["old"]):]
    open(path, "w").write(text)
    failed = []
    claims = json.load(open("/verif/MANIFEST.json"))["claims"]
    want = {c["property"]: [t.split(".", 1)[1] for t in c["theorems"]] for c in claims if c["property"] in spec["expect"]}
    targets = []
    if not os.environ.get("MUT_ALL"):
        for root, _, files in os.walk(os.path.join(lean, "Verif")):
            for f in files:
                names = set(re.findall(r"^(?:private |protected |noncomputable )*theorem (\S+)", open(os.path.join(root, f)).read(), re.M))
                if any(names & set(ts) for ts in want.values()):
                    targets.append(os.path.relpath(os.path.join(root, f), lean)[:-5].replace("/", "."))
    known = set()
    for root, _, files in os.walk(os.path.join(lean, "Verif")):
        for f in files:
            known |= set(re.findall(r"^(?:private |protected |noncomputable )*theorem (\S+)", open(os.path.join(root, f)).read(), re.M))
    for prop in spec["expect"]:
        if not set(want.get(prop, [])) & known:
            return {"status": "no theorems of " + prop}
    def_targets = targets
    for rnd in range(25):
        code, errs, out = build(lean, def_targets)
        if code == 0:
            break
        if not errs:
            return {"status": "build error", "out": out[-1500:]}
        todo = {}
        for f, ln in errs:
            p = os.path.join(lean, f)
            lines = open(p).read().split("\n")
            d = decl_at(lines, ln)
            if d is None or d[2] not in ("theorem", "lemma", "example"):
                return {"status": "ill-typed", "at": [f, ln, d and d[3]], "failed": failed, "out": out[-1500:]}
            todo.setdefault(p, {})[d[0]] = d
        for p, ds in todo.items():
            lines = open(p).read().split("\n")
            for i in sorted(ds, reverse=True):
                _, j, kind, name = ds[i]
                failed.append(name or "example@%s:%d" % (os.path.basename(p), i + 1))
                new = sorry_out("\n".join(lines[i:j]) + "\n")
                if new is None:
                    return {"status": "cannot strip", "at": [p, i + 1]}
                lines[i:j] = new.split("\n")
            open(p, "w").write("\n".join(lines))
        if not os.environ.get("MUT_ALL") and want and all(set(ts) & set(failed) for ts in want.values()):
            return {"status": "ok", "failed": failed, "survived": []}
    else:
        return {"status": "no fixpoint", "failed": failed}
    if not os.environ.get("MUT_ALL"):
        claims = [c for c in claims if c["property"] in spec["expect"]]
    thms = sorted({t for c in claims for t in c["theorems"]})
    open(os.path.join(lean, "Ax.lean"), "w").write("".join("import %s\n" % t for t in (targets or ["Verif"])) + "".join("#print axioms %s\n" % t for t in thms))
    r = subprocess.run(["lake", "env", "lean", "Ax.lean"], cwd=lean, capture_output=True, text=True)
    broken = set()
    for m in re.finditer(r"'([^']+)' depends on axioms: \[([^\]]*)\]", r.stdout):
        if "sorryAx" in m.group(2):
            broken.add(m.group(1))
    res = {"status": "ok", "failed": failed, "broken": sorted(broken)}
    props = {c["property"]: any(t in broken for t in c["theorems"]) for c in claims}
    res["broken_props"] = sorted(p for p in props if props[p])
    res["survived"] = [p for p in spec["expect"] if not props.get(p, False)]
    return res

def main():
    specs = json.load(open(sys.argv[1]))
    os.makedirs(SCRATCH, exist_ok=True)
    pr = os.path.join(SCRATCH, "pristine")
    if not os.path.exists(pr) or subprocess.call(["diff", "-rq", SRC + "/Verif", pr + "/Verif"], stdout=subprocess.DEVNULL):
        shutil.rmtree(pr, ignore_errors=True)
        subprocess.check_call(["cp", "-a", SRC, pr])
    for s in specs:
        res = run(s)
        with open(sys.argv[2], "a") as f:
            f.write(json.dumps({**s, **res}, ensure_ascii=False) + "\n")
        print(s["def"], "|", s["edit"], "->", res["status"], "survived:", res.get("survived"), "failed:", len(res.get("failed", [])), flush=True)

main()
