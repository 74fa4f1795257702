#!/usr/bin/env python3
"""Runs the Lean model on the inputs of the project's own tests and compares with the numbers written in those tests.

The test files and the airfoil tables of /repo are read as text; no code of the project is executed.  The model is executed
with the scalars `Float`.  Usage (in /verif/lean, after `lake build`): python3 ../tools/conformance.py
"""
import ast, math, os, subprocess, sys, tempfile

REPO = "/repo/test"


def value(node, env):
    """Literal value of an expression of the tests: numbers, lists, np.array, np.zeros(len(x)), arithmetic, pi."""
    if isinstance(node, ast.Constant):
        return node.value
    if isinstance(node, (ast.List, ast.Tuple)):
        return [value(x, env) for x in node.elts]
    if isinstance(node, ast.Name):
        return math.pi if node.id == "pi" else env[node.id]
    if isinstance(node, ast.Attribute) and node.attr == "pi":
        return math.pi
    if isinstance(node, ast.UnaryOp) and isinstance(node.op, ast.USub):
        x = value(node.operand, env)
        return [-y for y in x] if isinstance(x, list) else -x
    if isinstance(node, ast.BinOp):
        a, b = value(node.left, env), value(node.right, env)
        op = {ast.Add: lambda x, y: x + y, ast.Sub: lambda x, y: x - y, ast.Mult: lambda x, y: x * y, ast.Div: lambda x, y: x / y}[
            type(node.op)]
        if isinstance(a, list) and not isinstance(b, list):
            return [op(x, b) for x in a]
        return op(a, b)
    if isinstance(node, ast.Call) and isinstance(node.func, ast.Attribute):
        if node.func.attr == "array":
            return value(node.args[0], env)
        if node.func.attr == "zeros":
            return [0.0] * len(env[node.args[0].args[0].id])
        if node.func.attr == "linspace":
            return [0.0] * len(env[node.args[2].args[0].id])
        if node.func.attr == "sin":
            return math.sin(value(node.args[0], env))
    raise KeyError(ast.dump(node)[:80])


def run(fn, env):
    """Values of the assigned names of a test method that are literal; skips the rest."""
    env = dict(env)
    for st in fn.body:
        if isinstance(st, ast.Assign) and isinstance(st.targets[0], ast.Name):
            try:
                env[st.targets[0].id] = value(st.value, env)
            except (KeyError, AttributeError, IndexError):
                pass
        if isinstance(st, ast.Assign) and isinstance(st.targets[0], ast.Attribute) and isinstance(st.value, ast.Call) \
                and getattr(st.value.func, "id", "") == "Polar":
            env["self." + st.targets[0].attr] = [value(x, env) for x in st.value.args]
        if isinstance(st, ast.AugAssign) and isinstance(st.op, ast.Sub):
            env[st.target.id] = [x - value(st.value, env) for x in env[st.target.id]]
    return env


def methods(path, cls):
    tree = ast.parse(open(path).read())
    c = next(x for x in tree.body if isinstance(x, ast.ClassDef) and x.name == cls)
    return {f.name: f for f in c.body if isinstance(f, ast.FunctionDef)}


def num(x):
    s = repr(float(x))
    return f"({s})" if s[0] == "-" else s


def lst(x):
    return "[" + ", ".join(num(y) for y in x) + "]"


def flat(x):
    return [y[0] if isinstance(y, list) else y for y in x]


def polar(p):
    return f"(⟨{num(p[0])}, {', '.join(lst(q) for q in p[1:])}⟩ : Polar Float)"


def solve(A, b):
    """Gaussian elimination."""
    n = len(A)
    A = [row[:] + [b[i]] for i, row in enumerate(A)]
    for i in range(n):
        p = max(range(i, n), key=lambda k: abs(A[k][i]))
        A[i], A[p] = A[p], A[i]
        for k in range(i + 1, n):
            f = A[k][i] / A[i][i]
            if f:
                for j in range(i, n + 1):
                    A[k][j] -= f * A[i][j]
    x = [0.0] * n
    for i in reversed(range(n)):
        x[i] = (A[i][n] - sum(A[i][j] * x[j] for j in range(i + 1, n))) / A[i][i]
    return x


def smooth(x, y, s):
    """Values at the nodes of the natural smoothing spline whose sum of squared residuals is s."""
    n = len(x)
    h = [x[i + 1] - x[i] for i in range(n - 1)]
    m = n - 2
    Q = [[0.0] * m for _ in range(n)]
    R = [[0.0] * m for _ in range(m)]
    for j in range(m):
        Q[j][j], Q[j + 1][j], Q[j + 2][j] = 1 / h[j], -1 / h[j] - 1 / h[j + 1], 1 / h[j + 1]
        R[j][j] = (h[j] + h[j + 1]) / 3
        if j + 1 < m:
            R[j][j + 1] = R[j + 1][j] = h[j + 1] / 6
    Qy = [sum(Q[i][j] * y[i] for i in range(j, j + 3)) for j in range(m)]
    QQ = [[sum(Q[i][a] * Q[i][b] for i in range(n)) if abs(a - b) < 3 else 0.0 for b in range(m)] for a in range(m)]

    def fit(lam):
        g = solve([[R[a][b] + lam * QQ[a][b] for b in range(m)] for a in range(m)], Qy)
        return [y[i] - lam * sum(Q[i][j] * g[j] for j in range(max(0, i - 2), min(m, i + 1))) for i in range(n)]

    lo, hi = -14.0, 2.0
    for _ in range(14):
        mid = (lo + hi) / 2
        if sum((a - b) ** 2 for a, b in zip(fit(10 ** mid), y)) < s:
            lo = mid
        else:
            hi = mid
    return fit(10 ** lo)


def smoothed(src, dst):
    """Copy of an airfoil table with the smoothing that CCAirfoil asks RectBivariateSpline for (s = 0.1 for cl and 0.001 for cd,
    shared by the two equal columns)."""
    text = open(src).read().split("\n")
    k = next(i for i, l in enumerate(text) if "EOT" in l)
    seen = set()
    rows = [[float(t) for t in l.split()] for l in text[14:k]]
    rows = [r for r in rows if not (r[0] in seen or seen.add(r[0]))]
    if len(rows) > 6:
        x = [math.radians(r[0]) for r in rows]
        for r, cl, cd in zip(rows, smooth(x, [r[1] for r in rows], 0.05), smooth(x, [r[2] for r in rows], 0.0005)):
            r[1], r[2] = cl, cd
    text[14:k] = [" ".join("%.6f" % v for v in r) for r in rows]
    open(dst, "w").write("\n".join(text))


HEAD = """import Verif.Model.AeroDyn
open Verif

/-- least squares line -/
def fit : PolyFit Float := fun l =>
  let n := Float.ofNat l.length
  let sx := (l.map Prod.fst).foldl (· + ·) 0
  let sy := (l.map Prod.snd).foldl (· + ·) 0
  let mx := sx / n
  let my := sy / n
  let sxy := (l.map fun q => (q.1 - mx) * (q.2 - my)).foldl (· + ·) 0
  let sxx := (l.map fun q => (q.1 - mx) * (q.1 - mx)).foldl (· + ·) 0
  .ok (sxy / sxx, my - sxy / sxx * mx)

def show' (name : String) (r : Except PyErr (List Float)) : IO Unit :=
  match r with
  | .ok l => IO.println (name ++ " " ++ " ".intercalate (l.map fun x => toString x))
  | .error _ => IO.println (name ++ " raised")

def at' (xs : List Float) (p : Except PyErr (Polar Float)) (f : Polar Float → List Float) : Except PyErr (List Float) := do
  let q ← p
  npInterps xs q.alpha (f q)

def only (p : Except PyErr (Polar Float)) (f : Polar Float → List Float) : Except PyErr (List Float) := do return f (← p)

/-- bisection -/
def bisect : RootFinder Float := fun f a b => Id.run do
  let mut lo := a
  let mut hi := b
  let flo := f a
  for _ in [0:60] do
    let m := (lo + hi) / 2
    if (f m < 0) == (flo < 0) then lo := m else hi := m
  return .ok ((lo + hi) / 2)

/-- decimal numbers -/
def digits (s : List Char) : Float := s.foldl (fun x c => 10 * x + Float.ofNat (c.toNat - 48)) 0
def decimal (s : List Char) : Float :=
  let neg := s.head? == some '-'
  let t := if neg then s.tail else s
  let a := t.takeWhile (· ≠ '.')
  let b := (t.dropWhile (· ≠ '.')).drop 1
  let x := digits (a ++ b) / Float.ofNat (10 ^ b.length)
  if neg then -x else x
def lex : Verif.Lex Float := ⟨fun s => .ok (Int.ofNat (digits s).toUInt64.toNat), fun s => .ok (decimal s)⟩

/-- linear interpolation in the angle; the smoothing is done in the tables -/
def spline : SplineFit Float := fun xs _ z _ _ _ => Id.run do
  let col := arr xs.length fun i => z.get i 0
  let v := fun a => match npInterps [a] xs col with | .ok [y] => y | _ => 0
  return .ok ⟨fun a _ => v a, fun _ _ => .ok 0, fun _ _ => .ok 0⟩

def airfoil (name : String) : IO (AirfoilI Float) := do
  let text ← IO.FS.readFile name
  match CCAf.read lex spline 1000 text.toList with
  | some (.ok a) => return ⟨fun x re => ((a.evaluate x re false).1, (a.evaluate x re false).2.1), fun _ _ => 0, fun _ _ => 0,
      fun _ _ => 0, fun _ _ => 0⟩
  | some (.error _) => throw (IO.userError (name ++ " raised"))
  | none => throw (IO.userError (name ++ " still reading"))
"""


def main():
    lines, want = [], {}

    def add(name, expr, expected, atol, rtol=1e-7):
        lines.append(f'  show\' "{name}" ({expr})')
        want[name] = (flat(expected), atol, rtol)

    path = os.path.join(REPO, "test_airfoilprep.py")
    # blending
    ms = methods(path, "TestBlend")
    # two polars are built from reassigned names: follow the statements in order
    base = run(ms["setUp"], {})
    p1, p2 = base["self.polar1"], base["self.polar2"]
    for m in ("test_blend1", "test_blend2", "test_blend3"):
        e = run(ms[m], base)
        w = next(value(c.args[1], {}) for c in ast.walk(ms[m]) if isinstance(c, ast.Call) and getattr(c.func, "attr", "") == "blend")
        lines.append(f"  let p := Polar.blend {polar(p1)} {polar(p2)} {num(w)}")
        for q in ("cl", "cd", "cm"):
            add(f"{m}.{q}", f"at' {lst(e['alpha_blend'])} p Polar.{q}", e[q + "_blend"], 1e-3)
    # rotational correction
    ms = methods(path, "Test3DStall")
    base = run(ms["setUp"], {})
    for m in ("test_stall1", "test_stall2", "test_stall3", "test_stall4_cm"):
        e = run(ms[m], base)
        p = base["self.polar2" if "cm" in m else "self.polar"]
        lines.append(f"  let p := Polar.correction3D fit {polar(p)} ⟨{num(e['r'] / e['R'])}, {num(e['chord'] / e['r'])}, {num(e['tsr'])}, 30, -4, 4⟩")
        rtol = 1e-3 if m == "test_stall1" else 1e-7
        add(f"{m}.cl", "only p Polar.cl", e["cl_3d"], 1e-3, rtol)
        add(f"{m}.cd", "only p Polar.cd", e["cd_3d"], 1e-3, rtol)
        if "cm" in m:
            add(f"{m}.cm", "only p Polar.cm", [0.0] * len(p[1]), 1e-3)
    # extrapolation
    ms = methods(path, "TestExtrap")
    base = run(ms["setUp"], {})
    for m in ("test_extrap1", "test_extrap1_w_airfoil", "test_extrap2", "test_extrap3"):
        e = run(ms[m], base)
        p = base["self.polar2" if "airfoil" in m else "self.polar"]
        lines.append(f"  let p := Polar.extrapolate {polar(p)} {num(e['cdmax'])} none 0.001 15")
        for q, t in (("cl", 1.5e-4), ("cd", 1.5e-4), ("cm", 5e-3)):
            add(f"{m}.{q}", f"at' {lst(e['alpha_extrap'])} p Polar.{q}", e[q + "_extrap"], t)
    # the NREL 5MW rotor
    ms = methods(os.path.join(REPO, "test_ccblade.py"), "TestNREL5MW")
    base = run(ms["setUp"], {})
    m = next(k for k in ms if k.startswith("test"))
    e = run(ms[m], base)
    files = [c.args[1].value for c in ast.walk(ms["setUp"]) if isinstance(c, ast.Call) and getattr(c.func, "attr", "") == "join"
             and isinstance(c.args[1], ast.Constant)]
    files = [f for f in files if f.endswith(".dat")]
    lines.append("  let mut afs : Array (AirfoilI Float) := #[]")
    for f in files:
        lines.append(f'  afs := afs.push (← airfoil "@DIR@/{f}")')
    lines.append("  let none' : AirfoilI Float := ⟨fun _ _ => (0, 0), fun _ _ => 0, fun _ _ => 0, fun _ _ => 0, fun _ _ => 0⟩")
    lines.append("  let pick := afs")
    lines.append(f"  let idx : Array ℕ := #{base['af_idx']}")
    for q in ("r", "chord", "theta"):
        lines.append(f"  let {q} : Array Float := #{lst(base[q])}")
    lines.append("  " + " ".join(f"""let args : CCArgs Float := {{ n := {len(base['r'])}, r := (fun i => r[i]!), chord := (fun i => chord[i]!), theta := (fun i => theta[i]!),
    af := (fun i => pick.getD idx[i]! none'), Rhub := {num(base['Rhub'])}, Rtip := {num(base['Rtip'])}, B := {base['B']},
    rho := {num(base['rho'])}, mu := {num(base['mu'])}, precone := {num(base['precone'])}, tilt := {num(base['tilt'])},
    yaw := {num(base['yaw'])}, shearExp := 0.2, hubHt := 90.0, nSector := 8, precurve := none, precurveTip := 0, presweep := none,
    presweepTip := 0, tiploss := true, hubloss := true, wakerotation := true, usecd := true, iterRe := 1, derivatives := false }}""".split()))
    keep = [i for i, u in enumerate(e["Uinf"]) if u < 15]
    conds = ", ".join(f"⟨{num(e['Uinf'][i])}, {num(e['Omega'][i])}, {num(e['pitch'][i])}⟩" for i in keep)
    lines.append(f"  let cs : List (Cond Float) := [{conds}]")
    lines.append("""  let out : Except PyErr (List (CondOut Float)) := do
    let R ← args.build
    let o ← (evaluate bisect R cs false).2
    return o.conds""")
    for q, f, t in (("Q", "o.acc.Q.val", 0.15), ("P", "o.P.val", 0.2), ("T", "o.acc.T.val", 0.15)):
        add(f"{m}.{q}", f"do return (← out).map fun o => {f} / 1e6", [e[q + 'ref'][i] / 1e3 for i in keep], t)

    with tempfile.TemporaryDirectory() as d:
        src = os.path.join(d, "Conformance.lean")
        with open(src, "w") as fh:
            fh.write((HEAD + "\ndef main : IO Unit := do\n" + "\n".join(lines) + "\n").replace("@DIR@", d))
        for f in files:
            smoothed(f"{REPO}/5MW_AFFiles/{f}", os.path.join(d, f))
        res = subprocess.run(["lake", "env", "lean", "--run", src], capture_output=True, text=True)
    got = {l.split()[0]: l.split()[1:] for l in res.stdout.splitlines() if l.split() and l.split()[0] in want}
    bad = 0
    for name, (exp, atol, rtol) in want.items():
        g = got.get(name)
        if g is None or g == ["raised"] or len(g) != len(exp):
            print(f"{name}: {'missing' if g is None else g[:1]} ({len(g or [])} values, {len(exp)} expected)")
            bad += 1
            continue
        worst = max((abs(float(x) - y) for x, y in zip(g, exp)), default=0.0)
        ok = all(abs(float(x) - y) <= atol + rtol * abs(y) for x, y in zip(g, exp))
        print(f"{name}: {'agrees' if ok else 'DISAGREES'}; {len(exp)} values, largest difference {worst:.2e}, allowed {atol:g}")
        bad += not ok
    if res.returncode:
        print((res.stdout + res.stderr)[:3000])
        bad += 1
    print("all agree" if not bad else f"{bad} disagree")
    return 1 if bad else 0


if __name__ == "__main__":
    sys.exit(main())
