import Mathlib.Algebra.Order.Field.Basic
/-!
# Model of `insphere_s` (`src/triangle/tetrahedron.rs` lines 818-872)

Coordinates live in a linearly ordered field; `predicates::insphere` and `predicates::orient3d` are taken to return a value
with the sign of the exact determinant (their formulas are `src/predicates/predicates.rs` lines 1499-1542 and 759-778).
-/
namespace Verif.InSphere

/-- `enum Orientation` (`src/predicates/mod.rs` lines 22-27) without `Undefined`. -/
inductive Ori where
  | positive | negative | zero
deriving Repr, DecidableEq

/-- `sign_reverse` (`src/predicates/mod.rs` lines 62-68). -/
def Ori.reverse : Ori → Ori
  | .positive => .negative
  | .negative => .positive
  | .zero => .zero

/-- The point array, three coordinates per index. -/
structure Pt (K : Type) where
  x : K
  y : K
  z : K
deriving DecidableEq

variable {K : Type} [CommRing K] [LinearOrder K]

/-- `double_to_sign` (`src/predicates/mod.rs` lines 51-59). -/
def doubleToSign (v : K) : Ori := if v > 0 then .positive else if v < 0 then .negative else .zero

/-- `orient3d` (`src/predicates/predicates.rs` lines 759-778), exact. -/
def orient3d (a b c d : Pt K) : K :=
  let adx := a.x - d.x; let ady := a.y - d.y; let adz := a.z - d.z
  let bdx := b.x - d.x; let bdy := b.y - d.y; let bdz := b.z - d.z
  let cdx := c.x - d.x; let cdy := c.y - d.y; let cdz := c.z - d.z
  adz * (bdx * cdy - cdx * bdy) + bdz * (cdx * ady - adx * cdy) + cdz * (adx * bdy - bdx * ady)

/-- `insphere` (`src/predicates/predicates.rs` lines 1499-1542), exact. -/
def insphere (a b c d e : Pt K) : K :=
  let aex := a.x - e.x; let bex := b.x - e.x; let cex := c.x - e.x; let dex := d.x - e.x
  let aey := a.y - e.y; let bey := b.y - e.y; let cey := c.y - e.y; let dey := d.y - e.y
  let aez := a.z - e.z; let bez := b.z - e.z; let cez := c.z - e.z; let dez := d.z - e.z
  let ab := aex * bey - bex * aey
  let bc := bex * cey - cex * bey
  let cd := cex * dey - dex * cey
  let da := dex * aey - aex * dey
  let ac := aex * cey - cex * aey
  let bd := bex * dey - dex * bey
  let abc := aez * bc - bez * ac + cez * ab
  let bcd := bez * cd - cez * bd + dez * bc
  let cda := cez * da + dez * ac + aez * cd
  let dab := dez * ab + aez * bd + bez * da
  let alift := aex * aex + aey * aey + aez * aez
  let blift := bex * bex + bey * bey + bez * bez
  let clift := cex * cex + cey * cey + cez * cez
  let dlift := dex * dex + dey * dey + dez * dez
  (dlift * abc - clift * dab) + (blift * cda - alift * bcd)

/-- The inner `while i < n` loop (lines 847-853): one bubble pass over the first `n` adjacent pairs, with the number of
swaps. The recursion walks along the array instead of counting `i`. -/
def pass : Nat → List Nat → List Nat × Nat
  | n + 1, x :: y :: l =>
    if x > y then (y :: (pass n (x :: l)).1, (pass n (x :: l)).2 + 1)
    else (x :: (pass n (y :: l)).1, (pass n (y :: l)).2)
  | _, l => (l, 0)

/-- The outer `while n > 0` loop (lines 843-859). -/
def bubble : Nat → List Nat → Nat → List Nat × Nat
  | 0, l, swaps => (l, swaps)
  | n + 1, l, swaps =>
    if (pass n l).2 = 0 then ((pass n l).1, swaps) else bubble n (pass n l).1 (swaps + (pass n l).2)

/-- `insphere_s` (lines 818-872); `points` maps an index to its coordinates. -/
def insphereS (points : Nat → Pt K) (pa pb pc pd pe : Nat) : Ori :=
  let sign := insphere (points pa) (points pb) (points pc) (points pd) (points pe)
  if sign ≠ 0 then doubleToSign sign
  else
    match bubble 5 [pa, pb, pc, pd, pe] 0 with
    | ([p0, p1, p2, p3, p4], swaps) =>
      let ori := orient3d (points p1) (points p2) (points p3) (points p4)
      let ori := if ori = 0 then -orient3d (points p0) (points p2) (points p3) (points p4) else ori
      if swaps % 2 ≠ 0 then (doubleToSign ori).reverse else doubleToSign ori
    | _ => .zero

end Verif.InSphere
