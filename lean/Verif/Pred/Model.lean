import Verif.InSphere.Model
import Verif.Geom.Model
/-!
# Model of the implicit points and of the polynomials behind the predicates

`src/predicates/generic_point.rs`, and the `_impl` functions of `src/predicates/orient3d.rs`, `orient2d.rs`, `less_than.rs`.
The Rust functions are generic over a number type `T: GenericNum` (used with `f64`, `IntervalNumber`, `ExpansionNum`); so are
the definitions here, over any type with `+`, `-`, `*`. The `max_var` results only feed the static filters and are left out.
-/
namespace Verif.Pred
open InSphere (Pt Ori doubleToSign)

/-- `Implicit3DCache` (`generic_point.rs` lines 52-57). -/
structure Hom (T : Type) where
  x : T
  y : T
  z : T
  d : T
deriving DecidableEq

/-- `ImplicitPointLPI` (lines 90-103) without the caches. -/
structure LPI (T : Type) where
  p : Pt T
  q : Pt T
  r : Pt T
  s : Pt T
  t : Pt T

/-- `ImplicitPointTPI` (lines 348-366) without the caches. -/
structure TPI (T : Type) where
  v1 : Pt T
  v2 : Pt T
  v3 : Pt T
  w1 : Pt T
  w2 : Pt T
  w3 : Pt T
  u1 : Pt T
  u2 : Pt T
  u3 : Pt T

/-- The two implementors of `ImplicitPoint3D`. -/
inductive Imp (T : Type) where
  | lpi (l : LPI T)
  | tpi (t : TPI T)

/-- `Point3D` (lines 737-742). -/
inductive Point (T : Type) where
  | explicit (p : Pt T)
  | lpi (l : LPI T)
  | tpi (t : TPI T)

/-- An implicit point as a point. -/
def Imp.toPoint {T : Type} : Imp T → Point T
  | .lpi l => .lpi l
  | .tpi t => .tpi t

section generic
variable {T : Type} [Add T] [Sub T] [Mul T]

/-- `lpi_lambda` (lines 125-196). -/
def lpiLambda (l : LPI T) : Hom T :=
  let px := l.p.x; let py := l.p.y; let pz := l.p.z
  let qx := l.q.x; let qy := l.q.y; let qz := l.q.z
  let rx := l.r.x; let ry := l.r.y; let rz := l.r.z
  let sx := l.s.x; let sy := l.s.y; let sz := l.s.z
  let tx := l.t.x; let ty := l.t.y; let tz := l.t.z
  let a11 := px - qx
  let a12 := py - qy
  let a13 := pz - qz
  let a21 := sx - rx
  let a22 := sy - ry
  let a23 := sz - rz
  let a31 := tx - rx
  let a32 := ty - ry
  let a33 := tz - rz
  let tv1 := a22 * a33
  let tv2 := a23 * a32
  let a2233 := tv1 - tv2
  let tv3 := a21 * a33
  let tv4 := a23 * a31
  let a2133 := tv3 - tv4
  let tv5 := a21 * a32
  let tv6 := a22 * a31
  let a2132 := tv5 - tv6
  let tv7 := a11 * a2233
  let tv8 := a12 * a2133
  let tv9 := a13 * a2132
  let tt1 := tv7 - tv8
  let d := tt1 + tv9
  let px_rx := px - rx
  let py_ry := py - ry
  let pz_rz := pz - rz
  let tt2 := py_ry * a2133
  let tt3 := px_rx * a2233
  let tt4 := pz_rz * a2132
  let tt5 := tt3 + tt4
  let n := tt5 - tt2
  let ax := a11 * n
  let ay := a12 * n
  let az := a13 * n
  let dpx := d * px
  let dpy := d * py
  let dpz := d * pz
  { x := dpx - ax, y := dpy - ay, z := dpz - az, d := d }

/-- `tpi_lambda` (lines 396-546). -/
def tpiLambda (t : TPI T) : Hom T :=
  let v3x := t.v3.x - t.v2.x
  let v3y := t.v3.y - t.v2.y
  let v3z := t.v3.z - t.v2.z
  let v2x := t.v2.x - t.v1.x
  let v2y := t.v2.y - t.v1.y
  let v2z := t.v2.z - t.v1.z
  let w3x := t.w3.x - t.w2.x
  let w3y := t.w3.y - t.w2.y
  let w3z := t.w3.z - t.w2.z
  let w2x := t.w2.x - t.w1.x
  let w2y := t.w2.y - t.w1.y
  let w2z := t.w2.z - t.w1.z
  let u3x := t.u3.x - t.u2.x
  let u3y := t.u3.y - t.u2.y
  let u3z := t.u3.z - t.u2.z
  let u2x := t.u2.x - t.u1.x
  let u2y := t.u2.y - t.u1.y
  let u2z := t.u2.z - t.u1.z
  let nvx := v2y * v3z - v2z * v3y
  let nvy := v3x * v2z - v3z * v2x
  let nvz := v2x * v3y - v2y * v3x
  let nwx := w2y * w3z - w2z * w3y
  let nwy := w3x * w2z - w3z * w2x
  let nwz := w2x * w3y - w2y * w3x
  let nux := u2y * u3z - u2z * u3y
  let nuy := u3x * u2z - u3z * u2x
  let nuz := u2x * u3y - u2y * u3x
  let nwyuz := nwy * nuz - nwz * nuy
  let nwxuz := nwx * nuz - nwz * nux
  let nwxuy := nwx * nuy - nwy * nux
  let nvyuz := nvy * nuz - nvz * nuy
  let nvxuz := nvx * nuz - nvz * nux
  let nvxuy := nvx * nuy - nvy * nux
  let nvywz := nvy * nwz - nvz * nwy
  let nvxwz := nvx * nwz - nvz * nwx
  let nvxwy := nvx * nwy - nvy * nwx
  let p1 := nvx * t.v1.x + nvy * t.v1.y + nvz * t.v1.z
  let p2 := nwx * t.w1.x + nwy * t.w1.y + nwz * t.w1.z
  let p3 := nux * t.u1.x + nuy * t.u1.y + nuz * t.u1.z
  let lxa := p1 * nwyuz
  let lxb := p3 * nvywz
  let lxc := p2 * nvyuz
  let lxab := lxa + lxb
  let lya := p2 * nvxuz
  let lyb := p3 * nvxwz
  let lyc := p1 * nwxuz
  let lybc := lyc + lyb
  let lza := p3 * nvxwy
  let lzb := p1 * nwxuy
  let lzc := p2 * nvxuy
  let lzab := lza + lzb
  let da := nvx * nwyuz
  let db := nvz * nwxuy
  let dc := nvy * nwxuz
  let dab := da + db
  { x := lxab - lxc, y := lya - lybc, z := lzab - lzc, d := dab - dc }

/-- The homogeneous coordinates of an implicit point. -/
def Imp.lambda : Imp T → Hom T
  | .lpi l => lpiLambda l
  | .tpi t => tpiLambda t

/-- `orient3d_ieee_impl` (`orient3d.rs` lines 676-725). -/
def ieeeImpl (l1 : Hom T) (a b c : Pt T) : T :=
  let dcx := l1.d * c.x
  let dcy := l1.d * c.y
  let dcz := l1.d * c.z
  let ix_cx := l1.x - dcx
  let iy_cy := l1.y - dcy
  let ax_cx := a.x - c.x
  let ay_cy := a.y - c.y
  let az_cz := a.z - c.z
  let iz_cz := l1.z - dcz
  let bx_cx := b.x - c.x
  let by_cy := b.y - c.y
  let bz_cz := b.z - c.z
  let m01 := ix_cx * ay_cy - iy_cy * ax_cx
  let m02 := ix_cx * az_cz - iz_cz * ax_cx
  let m12 := iy_cy * az_cz - iz_cz * ay_cy
  let mt1 := m01 * bz_cz
  let mt2 := m02 * by_cy
  let mt3 := m12 * bx_cx
  let mtt := mt2 - mt1
  mtt - mt3

/-- `orient3d_iiee_impl` (`orient3d.rs` lines 810-863). -/
def iieeImpl (l1 l2 : Hom T) (p3 p4 : Pt T) : T :=
  let d1p4x := l1.d * p4.x
  let d1p4y := l1.d * p4.y
  let d1p4z := l1.d * p4.z
  let d2p4x := l2.d * p4.x
  let d2p4y := l2.d * p4.y
  let d2p4z := l2.d * p4.z
  let p1p4x := l1.x - d1p4x
  let p1p4y := l1.y - d1p4y
  let p1p4z := l1.z - d1p4z
  let p2p4x := l2.x - d2p4x
  let p2p4y := l2.y - d2p4y
  let p2p4z := l2.z - d2p4z
  let p3p4x := p3.x - p4.x
  let p3p4y := p3.y - p4.y
  let p3p4z := p3.z - p4.z
  let m01 := p1p4x * p2p4y - p1p4y * p2p4x
  let m02 := p1p4x * p2p4z - p1p4z * p2p4x
  let m12 := p1p4y * p2p4z - p1p4z * p2p4y
  let mt1 := m01 * p3p4z
  let mt2 := m02 * p3p4y
  let mt3 := m12 * p3p4x
  let mtt := mt2 - mt1
  mtt - mt3

/-- `orient3d_iiie_impl` (`orient3d.rs` lines 956-1012). -/
def iiieImpl (l1 l2 l3 : Hom T) (p4 : Pt T) : T :=
  let d1p4x := l1.d * p4.x
  let d1p4y := l1.d * p4.y
  let d1p4z := l1.d * p4.z
  let d2p4x := l2.d * p4.x
  let d2p4y := l2.d * p4.y
  let d2p4z := l2.d * p4.z
  let d3p4x := l3.d * p4.x
  let d3p4y := l3.d * p4.y
  let d3p4z := l3.d * p4.z
  let p1p4x := l1.x - d1p4x
  let p1p4y := l1.y - d1p4y
  let p1p4z := l1.z - d1p4z
  let p2p4x := l2.x - d2p4x
  let p2p4y := l2.y - d2p4y
  let p2p4z := l2.z - d2p4z
  let p3p4x := l3.x - d3p4x
  let p3p4y := l3.y - d3p4y
  let p3p4z := l3.z - d3p4z
  let m01 := p1p4x * p2p4y - p1p4y * p2p4x
  let m02 := p1p4x * p2p4z - p1p4z * p2p4x
  let m12 := p1p4y * p2p4z - p1p4z * p2p4y
  let mt1 := m01 * p3p4z
  let mt2 := m02 * p3p4y
  let mt3 := m12 * p3p4x
  let mtt := mt2 - mt1
  mtt - mt3

/-- `orient3d_iiii_impl` (`orient3d.rs` lines 1123-1182). -/
def iiiiImpl (l1 l2 l3 l4 : Hom T) : T :=
  let d1p4x := l1.d * l4.x
  let d1p4y := l1.d * l4.y
  let d1p4z := l1.d * l4.z
  let d2p4x := l2.d * l4.x
  let d2p4y := l2.d * l4.y
  let d2p4z := l2.d * l4.z
  let d3p4x := l3.d * l4.x
  let d3p4y := l3.d * l4.y
  let d3p4z := l3.d * l4.z
  let d4l1x := l4.d * l1.x
  let d4l1y := l4.d * l1.y
  let d4l1z := l4.d * l1.z
  let d4l2x := l4.d * l2.x
  let d4l2y := l4.d * l2.y
  let d4l2z := l4.d * l2.z
  let d4l3x := l4.d * l3.x
  let d4l3y := l4.d * l3.y
  let d4l3z := l4.d * l3.z
  let p1p4x := d4l1x - d1p4x
  let p1p4y := d4l1y - d1p4y
  let p1p4z := d4l1z - d1p4z
  let p2p4x := d4l2x - d2p4x
  let p2p4y := d4l2y - d2p4y
  let p2p4z := d4l2z - d2p4z
  let p3p4x := d4l3x - d3p4x
  let p3p4y := d4l3y - d3p4y
  let p3p4z := d4l3z - d3p4z
  let m01 := p1p4x * p2p4y - p1p4y * p2p4x
  let m02 := p1p4x * p2p4z - p1p4z * p2p4x
  let m12 := p1p4y * p2p4z - p1p4z * p2p4y
  let mt1 := m01 * p3p4z
  let mt2 := m02 * p3p4y
  let mt3 := m12 * p3p4x
  let mtt := mt2 - mt1
  mtt - mt3

/-- `orient2d_iee_impl` (`orient2d.rs` lines 524-554). -/
def ieeImpl (l1x l1y d1 p2x p2y p3x p3y : T) : T :=
  let t1x := p2y - p3y
  let t1y := p3x - p2x
  let e2 := l1x * t1x
  let e3 := l1y * t1y
  let e := e2 + e3
  let pr1 := p2x * p3y
  let pr2 := p2y * p3x
  let pr := pr1 - pr2
  let dpr := d1 * pr
  dpr + e

/-- `orient2d_iie_impl` (`orient2d.rs` lines 738-768). -/
def iieImpl (l1x l1y d1 l2x l2y d2 op3x op3y : T) : T :=
  let a := d1 * l2x
  let b := d2 * l1x
  let c := d1 * op3y
  let e := d1 * l2y
  let f := d2 * l1y
  let g := d1 * op3x
  let ab := a - b
  let cd := c - l1y
  let ef := e - f
  let gh := g - l1x
  let abcd := ab * cd
  let efgh := ef * gh
  abcd - efgh

/-- `orient2d_iii_impl` (`orient2d.rs` lines 1000-1027). -/
def iiiImpl (l1x l1y d1 l2x l2y d2 l3x l3y d3 : T) : T :=
  let a := d1 * l2x
  let b := d2 * l1x
  let c := d1 * l3y
  let d := d3 * l1y
  let e := d1 * l2y
  let f := d2 * l1y
  let g := d1 * l3x
  let h := d3 * l1x
  let ab := a - b
  let cd := c - d
  let ef := e - f
  let gh := g - h
  let abcd := ab * cd
  let efgh := ef * gh
  abcd - efgh

/-- `less_than_ie_impl` (`less_than.rs` lines 308-311). -/
def ltIeImpl (l1x d1 bx : T) : T :=
  let dbx := bx * d1
  l1x - dbx

/-- `less_than_ii_impl` (`less_than.rs` lines 394-398). -/
def ltIiImpl (l1x d1 l2x d2 : T) : T :=
  let k1 := d2 * l1x
  let k2 := d1 * l2x
  k1 - k2

end generic

/-- The two coordinates looked at by `AXIS`: 2: (x,y), 1: (z,x), else (y,z) (`orient2d.rs`, e.g. lines 572-606). -/
def ax2 {T : Type} (axis : Nat) (x y z : T) : T × T :=
  if axis = 2 then (x, y) else if axis = 1 then (z, x) else (y, z)

/-- The coordinate looked at by `AXIS` in `less_than`: 0: x, 1: y, else z. -/
def ax1 {T : Type} (axis : Nat) (x y z : T) : T := if axis = 0 then x else if axis = 1 then y else z

/-! ### The exact stage -/

variable {K : Type} [CommRing K] [LinearOrder K]

/-- What is not modelled concretely: the positive power of two by which `normalize_lambda3d` (lines 33-49) scales the exact
coordinates, and the answers (if any) of the static and dynamic filters of the predicates. -/
structure Env (K : Type) where
  scale : Imp K → K
  early3 : Point K → Point K → Point K → Point K → Option Ori
  early2 : Nat → Point K → Point K → Point K → Option Ori
  early1 : Nat → Point K → Point K → Option Ori

/-- `exact` (lines 297-343, 675-733): the sign of the denominator is made positive, all coordinates are scaled; `None` if the
denominator is zero. Expansion arithmetic is exact. -/
def exact (E : Env K) (i : Imp K) : Option (Hom K) :=
  let h := i.lambda
  let h := if h.d < 0 then { x := -h.x, y := -h.y, z := -h.z, d := -h.d } else h
  let s := E.scale i
  let h : Hom K := { x := h.x * s, y := h.y * s, z := h.z * s, d := h.d * s }
  if h.d ≠ 0 then some h else none

/-- `orient3d_ieee` (`orient3d.rs` lines 727-808). `none` is `Orientation::Undefined`. -/
def ieee (E : Env K) (pa : Imp K) (pb pc pd : Pt K) : Option Ori :=
  match E.early3 pa.toPoint (.explicit pb) (.explicit pc) (.explicit pd) with
  | some o => some o
  | none => do
    let a ← exact E pa
    pure (doubleToSign (ieeeImpl a pb pc pd))

/-- `orient3d_iiee` (`orient3d.rs` lines 865-954). -/
def iiee (E : Env K) (pa pb : Imp K) (pc pd : Pt K) : Option Ori :=
  match E.early3 pa.toPoint pb.toPoint (.explicit pc) (.explicit pd) with
  | some o => some o
  | none => do
    let a ← exact E pa
    let b ← exact E pb
    pure (doubleToSign (iieeImpl a b pc pd))

/-- `orient3d_iiie` (`orient3d.rs` lines 1014-1121). -/
def iiie (E : Env K) (pa pb pc : Imp K) (pd : Pt K) : Option Ori :=
  match E.early3 pa.toPoint pb.toPoint pc.toPoint (.explicit pd) with
  | some o => some o
  | none => do
    let a ← exact E pa
    let b ← exact E pb
    let c ← exact E pc
    pure (doubleToSign (iiieImpl a b c pd))

/-- `orient3d_iiii` (`orient3d.rs` lines 1184-1297). -/
def iiii (E : Env K) (pa pb pc pd : Imp K) : Option Ori :=
  match E.early3 pa.toPoint pb.toPoint pc.toPoint pd.toPoint with
  | some o => some o
  | none => do
    let a ← exact E pa
    let b ← exact E pb
    let c ← exact E pc
    let d ← exact E pd
    pure (doubleToSign (iiiiImpl a b c d))

/-- `orient2d_iee` (`orient2d.rs` lines 555-694). -/
def iee (E : Env K) (axis : Nat) (p1 : Imp K) (p2 p3 : Pt K) : Option Ori :=
  match E.early2 axis p1.toPoint (.explicit p2) (.explicit p3) with
  | some o => some o
  | none => do
    let a ← exact E p1
    let l1 := ax2 axis a.x a.y a.z
    let b := ax2 axis p2.x p2.y p2.z
    let c := ax2 axis p3.x p3.y p3.z
    pure (doubleToSign (ieeImpl l1.1 l1.2 a.d b.1 b.2 c.1 c.2))

/-- `orient2d_iie` (`orient2d.rs` lines 770-918). -/
def iie (E : Env K) (axis : Nat) (p1 p2 : Imp K) (p3 : Pt K) : Option Ori :=
  match E.early2 axis p1.toPoint p2.toPoint (.explicit p3) with
  | some o => some o
  | none => do
    let a ← exact E p1
    let b ← exact E p2
    let l1 := ax2 axis a.x a.y a.z
    let l2 := ax2 axis b.x b.y b.z
    let c := ax2 axis p3.x p3.y p3.z
    pure (doubleToSign (iieImpl l1.1 l1.2 a.d l2.1 l2.2 b.d c.1 c.2))

/-- `orient2d_iii` (`orient2d.rs` lines 1029-1188). -/
def iii (E : Env K) (axis : Nat) (p1 p2 p3 : Imp K) : Option Ori :=
  match E.early2 axis p1.toPoint p2.toPoint p3.toPoint with
  | some o => some o
  | none => do
    let a ← exact E p1
    let b ← exact E p2
    let c ← exact E p3
    let l1 := ax2 axis a.x a.y a.z
    let l2 := ax2 axis b.x b.y b.z
    let l3 := ax2 axis c.x c.y c.z
    pure (doubleToSign (iiiImpl l1.1 l1.2 a.d l2.1 l2.2 b.d l3.1 l3.2 c.d))

/-- `less_than_ee` (`less_than.rs` lines 51-61). -/
def ltEe (axis : Nat) (pa pb : Pt K) : Option Ori :=
  let a := ax1 axis pa.x pa.y pa.z
  let b := ax1 axis pb.x pb.y pb.z
  if a < b then some .negative else if a > b then some .positive else some .zero

/-- `less_than_ie` (`less_than.rs` lines 313-391). -/
def ltIe (E : Env K) (axis : Nat) (pa : Imp K) (pb : Pt K) : Option Ori :=
  match E.early1 axis pa.toPoint (.explicit pb) with
  | some o => some o
  | none => do
    let a ← exact E pa
    pure (doubleToSign (ltIeImpl (ax1 axis a.x a.y a.z) a.d (ax1 axis pb.x pb.y pb.z)))

/-- `less_than_ii` (`less_than.rs` lines 400-479). -/
def ltIi (E : Env K) (axis : Nat) (pa pb : Imp K) : Option Ori :=
  match E.early1 axis pa.toPoint pb.toPoint with
  | some o => some o
  | none => do
    let a ← exact E pa
    let b ← exact E pb
    pure (doubleToSign (ltIiImpl (ax1 axis a.x a.y a.z) a.d (ax1 axis b.x b.y b.z) b.d))

end Verif.Pred
