#!/usr/bin/env python3
"""Search for definitions no theorem depends on in an essential way.

usage: automutate.py OUT.jsonl [SEED] [PER_DEF] [DEF ...]

Every definition of the model is edited at random (swapped operators, comparisons, functions, fields, constants) in a scratch
copy of /verif/lean, which is rebuilt until the first theorem fails.  Edits no theorem notices are reported as survivors; they are
then examined by hand.
"""
import json, os, random, re, shutil, subprocess, sys, glob, signal

SCRATCH = os.environ.get("MUT_DIR", "/tmp/automut")
SRC = "/verif/lean"
OUT = sys.argv[1]
SEED = int(sys.argv[2]) if len(sys.argv) > 2 else 1
PER = int(sys.argv[3]) if len(sys.argv) > 3 else 2
ONLY = sys.argv[4:]
random.seed(SEED)

RULES = [
    (r" \+ ", " - "), (r" - ", " + "), (r" \* ", " / "), (r" / ", " * "), (r" < ", " ≤ "), (r" ≤ ", " < "), (r" ≤ ", " ≥ "), (r" < ", " > "),
    (r"Num\.sin", "Num.cos"), (r"Num\.cos", "Num.sin"), (r"\btrue\b", "false"), (r"\bfalse\b", "true"),
    (r"\.x\b", ".y"), (r"\.y\b", ".z"), (r"\.z\b", ".x"), (r"\.cl\b", ".cd"), (r"\.cd\b", ".cl"), (r"\.Np\b", ".Tp"), (r"\.Tp\b", ".Np"),
    (r"\.1\b", ".2"), (r"\.2\b", ".1"), (r"\b0\b", "1"), (r"\b1\b", "2"), (r"\b2\b", "3"), (r"\bi \+ 1\b", "i"), (r"&&", "||"), (r"\|\|", "&&"),
    (r"∧", "∨"), (r"nmax", "nmin"), (r"nmin", "nmax"), (r"npMaximum", "npMinimum"), (r"\.head", ".getLast"), (r"pyFirst", "pyLast"), (r"pyLast", "pyFirst"),
    (r"sq ", ""), (r"-Num\.", "Num."), (r"Num\.nat (\d+)", None), (r"Vx\b", "Vy"), (r"Vy\b", "Vx"), (r"Rhub\b", "Rtip"), (r"Rtip\b", "Rhub"),
    (r"precurve\b", "presweep"), (r"presweep\b", "precurve"), (r"some ", "none -- "), (r"valueError", "indexError"), (r"indexError", "valueError"),
    (r"a ++ b", "b ++ a"), (r"not |!", ""), (r"\bCP\b", "CT"), (r"alpha\b", "phi"), (r"theta\b", "pitch"), (r"tilt\b", "yaw"), (r"chord\b", "theta"),
]

def defs(text):
    """(name, start of body, end)"""
    out = []
    heads = [(m.start(), m.group(1)) for m in re.finditer(r"^(?:noncomputable )?def\s+(\S+)", text, re.M)]
    tops = sorted([m.start() for m in re.finditer(r"^(?:/--|/-!|@\[|theorem|lemma|example|def|noncomputable|structure|instance|inductive|abbrev|class|namespace|section|end|open|variable)", text, re.M)] + [len(text)])
    for s, n in heads:
        e = next(t for t in tops if t > s)
        b = text.find(":=", s, e)
        k = text.find("\n  |", s, e)
        b = min(x for x in (b, k) if x >= 0) if (b >= 0 or k >= 0) else -1
        if b > 0:
            out.append((n, b, e))
    return out

def mutants(body):
    res = []
    for pat, rep in RULES:
        for m in re.finditer(pat, body):
            line = body[body.rfind("\n", 0, m.start()) + 1:m.start()]
            if "--" in line:
                continue
            r = rep if rep is not None else "Num.nat " + str(int(m.group(1)) + 1)
            if r.startswith("none --"):
                continue
            res.append((m.start(), m.end(), r))
    random.shuffle(res)
    return res

def first_failure(lean):
    p = subprocess.Popen(["nice", "-n", "10", "taskset", "-c", os.environ.get("MUT_CPUS", "0,1"), "lake", "build"], cwd=lean,
                         stdout=subprocess.PIPE, stderr=subprocess.STDOUT, text=True, start_new_session=True)
    hit = None
    for line in p.stdout:
        m = re.match(r"^error: (Verif/[^:\n]*\.lean):(\d+):\d+:", line)
        if m:
            hit = (m.group(1), int(m.group(2)))
            break
        if line.startswith("error:") and "build failed" not in line:
            hit = ("?", line)
            break
    if hit:
        os.killpg(p.pid, signal.SIGKILL)
    p.wait()
    if hit is None and p.returncode != 0:
        hit = ("?", "failed")
    return hit

def decl(path, ln):
    lines = open(path).read().split("\n")
    i = ln - 1
    while i >= 0 and not re.match(r"^(?:noncomputable )?(theorem|lemma|example|def|instance)", lines[i]):
        i -= 1
    return lines[i][:80] if i >= 0 else "?"

def main():
    pristine = os.path.join(SCRATCH, "pristine")
    os.makedirs(SCRATCH, exist_ok=True)
    if not os.path.exists(pristine):
        subprocess.check_call(["cp", "-a", SRC, pristine])
    jobs = []
    for f in sorted(glob.glob(os.path.join(pristine, "Verif/Model/*.lean"))):
        text = open(f).read()
        for n, b, e in defs(text):
            if ONLY and n not in ONLY:
                continue
            for k, (s, t, r) in enumerate(mutants(text[b:e])[:3 * PER]):
                jobs.append((f, n, b + s, b + t, r, k))
    # first PER mutants of each definition; more only if ill-typed
    byd = {}
    for j in jobs:
        byd.setdefault((j[0], j[1]), []).append(j)
    keys = list(byd)
    random.shuffle(keys)
    done = set()
    if os.path.exists(OUT):
        for l in open(OUT):
            d = json.loads(l)
            done.add((d["file"], d["def"]))
    lean = os.path.join(SCRATCH, "lean")
    for key in keys:
        rel = os.path.relpath(key[0], pristine)
        if (rel, key[1]) in done:
            continue
        good = 0
        for f, n, s, t, r, k in byd[key]:
            if good >= PER:
                break
            text = open(f).read()
            new = text[:s] + r + text[t:]
            if os.path.exists(lean):
                shutil.rmtree(lean)
            subprocess.check_call(["cp", "-a", pristine, lean])
            open(os.path.join(lean, rel), "w").write(new)
            hit = first_failure(lean)
            ls, le = text.rfind("\n", 0, s) + 1, text.find("\n", t)
            rec = {"file": rel, "def": n, "old": text[ls:le].strip(), "new": new[ls:le + len(r) - (t - s)].strip()}
            if hit and (hit[0] == "?" or "/Model/" in hit[0]):
                rec["status"] = "ill-typed"
            elif hit:
                rec["status"] = "killed"
                rec["by"] = hit[0] + ": " + decl(os.path.join(lean, hit[0]), hit[1])
                good += 1
            else:
                rec["status"] = "SURVIVED"
                good += 1
            with open(OUT, "a") as o:
                o.write(json.dumps(rec, ensure_ascii=False) + "\n")

main()
