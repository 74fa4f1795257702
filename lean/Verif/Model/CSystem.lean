import Verif.Num
import Verif.Model.Py

/-!
# Model of `ccblade/csystem.py` (class `DirectionVector`)

Simplifications.
* Components are scalars; the code applies the same formulas elementwise to arrays.
* `self.dx`, `self.dy`, `self.dz` are three dictionaries with the same key set (they are created together in
  `__init__`, ll. 38-56, and always updated together).  They are modelled as one dictionary of triples.  Dictionaries
  passed in by hand through the optional constructor arguments are not modelled.
* `__str__` is not modelled.  The components are floats (in-place operators on integer arrays raise in numpy).
-/

namespace Verif

/-- Names of the angles used by the conversions (`thetaname` arguments, csystem.py ll. 153-346). -/
inductive Angle
  | beta | yaw | tilt | azimuth | precone | theta
  deriving DecidableEq, Repr

/-- Keys of the derivative dictionaries: `"dx"`, `"dy"`, `"dz"` and `"d" + thetaname` (csystem.py ll. 38-52, 117). -/
inductive DKey
  | dx | dy | dz | ang (a : Angle)
  deriving DecidableEq, Repr

/-- A component triple. -/
structure Triple (α : Type) where
  x : α
  y : α
  z : α
  deriving Repr

/-- Python dictionaries as association lists in insertion order; assignment replaces an existing entry. -/
abbrev Dict (κ α : Type) := List (κ × α)

namespace Dict
variable {κ β : Type} [DecidableEq κ]

/-- `d.get(k)` -/
def get? : Dict κ β → κ → Option β
  | [], _ => none
  | (k', v) :: d, k => if k' = k then some v else get? d k

/-- `d[k] = v` -/
def set : Dict κ β → κ → β → Dict κ β
  | [], k, v => [(k, v)]
  | (k', v') :: d, k, v => if k' = k then (k', v) :: d else (k', v') :: set d k v

/-- `d.keys()` -/
def keys (d : Dict κ β) : List κ := d.map Prod.fst

end Dict

/-- A `DirectionVector` with its derivative dictionaries; `d` maps a key to the triple
`(self.dx[key], self.dy[key], self.dz[key])` (csystem.py ll. 34-56). -/
structure DirVec (α : Type) where
  x : α
  y : α
  z : α
  d : Dict DKey (Triple α)

section
variable {α : Type} [Num α]

/-- `DirectionVector(x, y, z)` without derivative arguments (csystem.py ll. 20-56). -/
def DirVec.mk' (x y z : α) : DirVec α :=
  ⟨x, y, z, [(.dx, ⟨1, 0, 0⟩), (.dy, ⟨0, 1, 0⟩), (.dz, ⟨0, 0, 1⟩)]⟩

/-- How one entry of the derivative dictionaries is rotated (csystem.py ll. 114-135): the entry `(dx[k], dy[k], dz[k])`
becomes `(dx[k]*c + dy[k]*s, -dx[k]*s + dy[k]*c, dz[k])`. -/
def rotEntry (c s : α) (t : Triple α) : Triple α := ⟨t.x * c + t.y * s, -t.x * s + t.y * c, t.z⟩

/-- `_rotateAboutZ(xstring, ystring, zstring, theta, thetaname, reverse)` (csystem.py ll. 83-137).
The components (and the dictionary triples) are given in the order selected by the three attribute names; the result is
in the same order. -/
def rotateAboutZ (x y z : α) (d : Dict DKey (Triple α)) (theta : α) (name : Angle) (reverse : Bool) : DirVec α :=
  -- ll. 89-91
  let thetaM : α := if reverse then -1 else 1
  -- ll. 100-102
  let th := deg2rad (theta * thetaM)
  let c := Num.cos th
  let s := Num.sin th
  -- ll. 104-106
  let xnew := x * c + y * s
  let ynew := -x * s + y * c
  let znew := z
  -- ll. 113-116, 121-124, 129-132: the entries "dx", "dy", "dz"
  let base : Dict DKey (Triple α) :=
    (d.filter (fun e => e.1 = .dx ∨ e.1 = .dy ∨ e.1 = .dz)).map (fun e => (e.1, rotEntry c s e.2))
  -- ll. 117, 125, 133: the entry of the new angle
  let withNew := Dict.set base (.ang name)
    ⟨(-x * s + y * c) * deg2rad thetaM, (-x * c - y * s) * deg2rad thetaM, 0⟩
  -- ll. 108-111, 118-119, 126-127, 134-135: loop over the angles already present (assignment overwrites)
  let angles := d.filter (fun e => ¬(e.1 = .dx ∨ e.1 = .dy ∨ e.1 = .dz))
  let dnew := angles.foldl (fun acc e => Dict.set acc e.1 (rotEntry c s e.2)) withNew
  ⟨xnew, ynew, znew, dnew⟩

/-- Reorder the triples of a dictionary. -/
def permD (f : Triple α → Triple α) (d : Dict DKey (Triple α)) : Dict DKey (Triple α) :=
  d.map (fun e => (e.1, f e.2))

/-- Rotation in the x-y plane: `_rotateAboutZ("x", "y", "z", ...)`. -/
def rotXY (v : DirVec α) (theta : α) (name : Angle) (reverse : Bool) : DirVec α :=
  rotateAboutZ v.x v.y v.z v.d theta name reverse

/-- Rotation in the z-x plane: `_rotateAboutZ("z", "x", "y", ...)` and reassembly in the order x, y, z. -/
def rotZX (v : DirVec α) (theta : α) (name : Angle) (reverse : Bool) : DirVec α :=
  let r := rotateAboutZ v.z v.x v.y (permD (fun t => ⟨t.z, t.x, t.y⟩) v.d) theta name reverse
  ⟨r.y, r.z, r.x, permD (fun t => ⟨t.y, t.z, t.x⟩) r.d⟩

/-- Rotation in the y-z plane: `_rotateAboutZ("y", "z", "x", ...)` and reassembly in the order x, y, z. -/
def rotYZ (v : DirVec α) (theta : α) (name : Angle) (reverse : Bool) : DirVec α :=
  let r := rotateAboutZ v.y v.z v.x (permD (fun t => ⟨t.y, t.z, t.x⟩) v.d) theta name reverse
  ⟨r.z, r.x, r.y, permD (fun t => ⟨t.z, t.x, t.y⟩) r.d⟩

namespace DirVec

/-- csystem.py ll. 139-154 -/
def windToInertial (v : DirVec α) (beta : α) : DirVec α := rotXY v beta .beta true
/-- csystem.py ll. 156-171 -/
def inertialToWind (v : DirVec α) (beta : α) : DirVec α := rotXY v beta .beta false
/-- csystem.py ll. 173-188 -/
def yawToWind (v : DirVec α) (psi : α) : DirVec α := rotXY v psi .yaw true
/-- csystem.py ll. 190-205 -/
def windToYaw (v : DirVec α) (psi : α) : DirVec α := rotXY v psi .yaw false
/-- csystem.py ll. 207-222 -/
def hubToYaw (v : DirVec α) (th : α) : DirVec α := rotZX v th .tilt true
/-- csystem.py ll. 224-239 -/
def yawToHub (v : DirVec α) (th : α) : DirVec α := rotZX v th .tilt false
/-- csystem.py ll. 241-256 -/
def hubToAzimuth (v : DirVec α) (la : α) : DirVec α := rotYZ v la .azimuth false
/-- csystem.py ll. 258-274 -/
def azimuthToHub (v : DirVec α) (la : α) : DirVec α := rotYZ v la .azimuth true
/-- csystem.py ll. 276-292 -/
def azimuthToBlade (v : DirVec α) (ph : α) : DirVec α := rotZX v ph .precone true
/-- csystem.py ll. 294-311 -/
def bladeToAzimuth (v : DirVec α) (ph : α) : DirVec α := rotZX v ph .precone false
/-- csystem.py ll. 313-329 -/
def airfoilToBlade (v : DirVec α) (th : α) : DirVec α := rotXY v th .theta false
/-- csystem.py ll. 331-347 -/
def bladeToAirfoil (v : DirVec α) (th : α) : DirVec α := rotXY v th .theta true
/-- csystem.py ll. 349-359 -/
def airfoilToProfile (v : DirVec α) : DirVec α := ⟨v.y, v.x, v.z, permD (fun t => ⟨t.y, t.x, t.z⟩) v.d⟩
/-- csystem.py ll. 361-371 -/
def profileToAirfoil (v : DirVec α) : DirVec α := ⟨v.y, v.x, v.z, permD (fun t => ⟨t.y, t.x, t.z⟩) v.d⟩

/-- `cross` (csystem.py ll. 373-394), with `np.cross` of two 3-vectors written out.  The derivative dictionaries are
reset by the constructor call. -/
def cross (a b : DirVec α) : DirVec α :=
  mk' (a.y * b.z - a.z * b.y) (a.z * b.x - a.x * b.z) (a.x * b.y - a.y * b.x)

/-- A dictionary filled by successive assignments `d[k] = v`. -/
def assigns {β : Type} (l : List (String × β)) : Dict String β := l.foldl (fun d e => Dict.set d e.1 e.2) []

/-- `cross_deriv(other, namea, nameb)` (csystem.py ll. 396-415): the dictionaries `dx`, `dy`, `dz`; each holds under the two names the
gradients of one component of `a × b` with respect to the two operands. -/
def crossDeriv (a b : DirVec α) (namea nameb : String) : Triple (Dict String (Triple α)) :=
  ⟨assigns [(namea, ⟨0, b.z, -b.y⟩), (nameb, ⟨0, -a.z, a.y⟩)],
   assigns [(namea, ⟨-b.z, 0, b.x⟩), (nameb, ⟨a.z, 0, -a.x⟩)],
   assigns [(namea, ⟨b.y, -b.x, 0⟩), (nameb, ⟨-a.y, a.x, 0⟩)]⟩

/-- `cross_deriv_array(other, namea, nameb)` (csystem.py ll. 417-447): the dictionaries `dx`, `dy`, `dz`. -/
def crossDerivArray (a b : DirVec α) (namea nameb : String) : Triple (Dict String α) :=
  ⟨assigns [("d" ++ namea ++ "x", 0), ("d" ++ namea ++ "y", b.z), ("d" ++ namea ++ "z", -b.y),
     ("d" ++ nameb ++ "x", 0), ("d" ++ nameb ++ "y", -a.z), ("d" ++ nameb ++ "z", a.y)],
   assigns [("d" ++ namea ++ "x", -b.z), ("d" ++ namea ++ "y", 0), ("d" ++ namea ++ "z", b.x),
     ("d" ++ nameb ++ "x", a.z), ("d" ++ nameb ++ "y", 0), ("d" ++ nameb ++ "z", -a.x)],
   assigns [("d" ++ namea ++ "x", b.y), ("d" ++ namea ++ "y", -b.x), ("d" ++ namea ++ "z", 0),
     ("d" ++ nameb ++ "x", -a.y), ("d" ++ nameb ++ "y", a.x), ("d" ++ nameb ++ "z", 0)]⟩

/-- The right operand of an arithmetic operator: another vector or a scalar (`isinstance` tests, ll. 454-525). -/
inductive Operand (α : Type)
  | vec (v : DirVec α)
  | scal (s : α)

/-- `__neg__` (ll. 449-452) -/
def neg (v : DirVec α) : DirVec α := mk' (-v.x) (-v.y) (-v.z)
/-- `__add__` (ll. 454-460) -/
def add (v : DirVec α) : Operand α → DirVec α
  | .vec w => mk' (v.x + w.x) (v.y + w.y) (v.z + w.z)
  | .scal s => mk' (v.x + s) (v.y + s) (v.z + s)
/-- `__sub__` (ll. 462-468) -/
def sub (v : DirVec α) : Operand α → DirVec α
  | .vec w => mk' (v.x - w.x) (v.y - w.y) (v.z - w.z)
  | .scal s => mk' (v.x - s) (v.y - s) (v.z - s)
/-- `__mul__` (ll. 498-504) -/
def mul (v : DirVec α) : Operand α → DirVec α
  | .vec w => mk' (v.x * w.x) (v.y * w.y) (v.z * w.z)
  | .scal s => mk' (v.x * s) (v.y * s) (v.z * s)
/-- `__truediv__` (ll. 506-512) -/
def truediv (v : DirVec α) : Operand α → DirVec α
  | .vec w => mk' (v.x / w.x) (v.y / w.y) (v.z / w.z)
  | .scal s => mk' (v.x / s) (v.y / s) (v.z / s)
/-- `__iadd__` (ll. 470-482): changes the components in place, the derivative dictionaries stay as they are. -/
def iadd (v : DirVec α) : Operand α → DirVec α
  | .vec w => { v with x := v.x + w.x, y := v.y + w.y, z := v.z + w.z }
  | .scal s => { v with x := v.x + s, y := v.y + s, z := v.z + s }
/-- `__isub__` (ll. 484-496) -/
def isub (v : DirVec α) : Operand α → DirVec α
  | .vec w => { v with x := v.x - w.x, y := v.y - w.y, z := v.z - w.z }
  | .scal s => { v with x := v.x - s, y := v.y - s, z := v.z - s }
/-- `__imul__` (ll. 514-525) -/
def imul (v : DirVec α) : Operand α → DirVec α
  | .vec w => { v with x := v.x * w.x, y := v.y * w.y, z := v.z * w.z }
  | .scal s => { v with x := v.x * s, y := v.y * s, z := v.z * s }

end DirVec

/-- `fromArray(array)` (csystem.py ll. 58-69): the components `array[0]`, `array[1]`, `array[2]`, numbers or (for a two-dimensional
array) rows; a shorter array raises `IndexError`, further entries are ignored.  Derivative dictionaries left out. -/
def fromArray {β : Type} (l : List β) : Except PyErr (Triple β) :=
  match l with
  | x :: y :: z :: _ => .ok ⟨x, y, z⟩
  | _ => .error .indexError

/-- `toArray()` (csystem.py ll. 71-81): `np.c_[x, y, z]`, the matrix with the rows `(x[i], y[i], z[i])`; components that are numbers
count as arrays of length one; arrays of different lengths raise `ValueError`. -/
def toArray {β : Type} (v : Triple (List β)) : Except PyErr (List (List β)) :=
  if v.x.length = v.y.length ∧ v.x.length = v.z.length then
    .ok ((v.x.zip (v.y.zip v.z)).map fun r => [r.1, r.2.1, r.2.2])
  else .error .valueError

/-- The conversions as data, for statements about chains of conversions. -/
inductive Conv
  | windToInertial | inertialToWind | yawToWind | windToYaw | hubToYaw | yawToHub | hubToAzimuth | azimuthToHub
  | azimuthToBlade | bladeToAzimuth | airfoilToBlade | bladeToAirfoil | airfoilToProfile | profileToAirfoil
  deriving DecidableEq, Repr

/-- Call the conversion method on a vector (the angle is ignored by the two profile conversions, which take none). -/
def Conv.call : Conv → DirVec α → α → DirVec α
  | .windToInertial, v, t => v.windToInertial t
  | .inertialToWind, v, t => v.inertialToWind t
  | .yawToWind, v, t => v.yawToWind t
  | .windToYaw, v, t => v.windToYaw t
  | .hubToYaw, v, t => v.hubToYaw t
  | .yawToHub, v, t => v.yawToHub t
  | .hubToAzimuth, v, t => v.hubToAzimuth t
  | .azimuthToHub, v, t => v.azimuthToHub t
  | .azimuthToBlade, v, t => v.azimuthToBlade t
  | .bladeToAzimuth, v, t => v.bladeToAzimuth t
  | .airfoilToBlade, v, t => v.airfoilToBlade t
  | .bladeToAirfoil, v, t => v.bladeToAirfoil t
  | .airfoilToProfile, v, _ => v.airfoilToProfile
  | .profileToAirfoil, v, _ => v.profileToAirfoil

/-- The name under which a conversion records the derivative with respect to its angle. -/
def Conv.name : Conv → Option Angle
  | .windToInertial | .inertialToWind => some .beta
  | .yawToWind | .windToYaw => some .yaw
  | .hubToYaw | .yawToHub => some .tilt
  | .hubToAzimuth | .azimuthToHub => some .azimuth
  | .azimuthToBlade | .bladeToAzimuth => some .precone
  | .airfoilToBlade | .bladeToAirfoil => some .theta
  | .airfoilToProfile | .profileToAirfoil => none

end

end Verif
