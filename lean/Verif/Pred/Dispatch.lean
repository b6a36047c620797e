import Verif.Pred.Model
/-!
# The dispatch tables of the predicates on generic points

Transcribed arm by arm from `src/predicates/orient3d.rs` lines 13-277, `src/predicates/orient2d.rs` lines 9-265 and
`src/predicates/less_than.rs` lines 8-48. The functions `orient3d_leee`, `orient3d_teee`, ... of the code only choose the constant of
the static filter and call `orient3d_ieee`, ...; they are inlined.
-/
namespace Verif.Pred
open InSphere (Pt Ori doubleToSign)

variable {K : Type} [CommRing K] [LinearOrder K]

/-- `orient3d` (`orient3d.rs` lines 13-268). -/
def orient3d (E : Env K) (pa pb pc pd : Point K) : Option Ori :=
  match pa, pb, pc, pd with
  | .explicit pa, .explicit pb, .explicit pc, .explicit pd => some (doubleToSign (-(InSphere.orient3d pa pb pc pd)))
  | .explicit pa, .explicit pb, .explicit pc, .lpi pd => ieee E (.lpi pd) pa pc pb
  | .explicit pa, .explicit pb, .explicit pc, .tpi pd => ieee E (.tpi pd) pa pc pb
  | .explicit pa, .explicit pb, .lpi pc, .explicit pd => ieee E (.lpi pc) pd pa pb
  | .explicit pa, .explicit pb, .lpi pc, .lpi pd => iiee E (.lpi pc) (.lpi pd) pa pb
  | .explicit pa, .explicit pb, .lpi pc, .tpi pd => iiee E (.lpi pc) (.tpi pd) pa pb
  | .explicit pa, .explicit pb, .tpi pc, .explicit pd => ieee E (.tpi pc) pd pa pb
  | .explicit pa, .explicit pb, .tpi pc, .lpi pd => iiee E (.lpi pd) (.tpi pc) pb pa
  | .explicit pa, .explicit pb, .tpi pc, .tpi pd => iiee E (.tpi pc) (.tpi pd) pa pb
  | .explicit pa, .lpi pb, .explicit pc, .explicit pd => ieee E (.lpi pb) pc pa pd
  | .explicit pa, .lpi pb, .explicit pc, .lpi pd => iiee E (.lpi pb) (.lpi pd) pc pa
  | .explicit pa, .lpi pb, .explicit pc, .tpi pd => iiee E (.lpi pb) (.tpi pd) pc pa
  | .explicit pa, .lpi pb, .lpi pc, .explicit pd => iiee E (.lpi pb) (.lpi pc) pa pd
  | .explicit pa, .lpi pb, .lpi pc, .lpi pd => iiie E (.lpi pb) (.lpi pd) (.lpi pc) pa
  | .explicit pa, .lpi pb, .lpi pc, .tpi pd => iiie E (.lpi pc) (.lpi pb) (.tpi pd) pa
  | .explicit pa, .lpi pb, .tpi pc, .explicit pd => iiee E (.lpi pb) (.tpi pc) pa pd
  | .explicit pa, .lpi pb, .tpi pc, .lpi pd => iiie E (.lpi pb) (.lpi pd) (.tpi pc) pa
  | .explicit pa, .lpi pb, .tpi pc, .tpi pd => iiie E (.lpi pb) (.tpi pd) (.tpi pc) pa
  | .explicit pa, .tpi pb, .explicit pc, .explicit pd => ieee E (.tpi pb) pc pa pd
  | .explicit pa, .tpi pb, .explicit pc, .lpi pd => iiee E (.lpi pd) (.tpi pb) pa pc
  | .explicit pa, .tpi pb, .explicit pc, .tpi pd => iiee E (.tpi pd) (.tpi pb) pa pc
  | .explicit pa, .tpi pb, .lpi pc, .explicit pd => iiee E (.lpi pc) (.tpi pb) pd pa
  | .explicit pa, .tpi pb, .lpi pc, .lpi pd => iiie E (.lpi pd) (.lpi pc) (.tpi pb) pa
  | .explicit pa, .tpi pb, .lpi pc, .tpi pd => iiie E (.lpi pc) (.tpi pb) (.tpi pd) pa
  | .explicit pa, .tpi pb, .tpi pc, .explicit pd => iiee E (.tpi pb) (.tpi pc) pa pd
  | .explicit pa, .tpi pb, .tpi pc, .lpi pd => iiie E (.lpi pd) (.tpi pc) (.tpi pb) pa
  | .explicit pa, .tpi pb, .tpi pc, .tpi pd => iiie E (.tpi pd) (.tpi pc) (.tpi pb) pa
  | .lpi pa, .explicit pb, .explicit pc, .explicit pd => ieee E (.lpi pa) pb pc pd
  | .lpi pa, .explicit pb, .explicit pc, .lpi pd => iiee E (.lpi pd) (.lpi pa) pc pb
  | .lpi pa, .explicit pb, .explicit pc, .tpi pd => iiee E (.lpi pa) (.tpi pd) pb pc
  | .lpi pa, .explicit pb, .lpi pc, .explicit pd => iiee E (.lpi pa) (.lpi pc) pd pb
  | .lpi pa, .explicit pb, .lpi pc, .lpi pd => iiie E (.lpi pa) (.lpi pc) (.lpi pd) pb
  | .lpi pa, .explicit pb, .lpi pc, .tpi pd => iiie E (.lpi pa) (.lpi pc) (.tpi pd) pb
  | .lpi pa, .explicit pb, .tpi pc, .explicit pd => iiee E (.lpi pa) (.tpi pc) pd pb
  | .lpi pa, .explicit pb, .tpi pc, .lpi pd => iiie E (.lpi pd) (.lpi pa) (.tpi pc) pb
  | .lpi pa, .explicit pb, .tpi pc, .tpi pd => iiie E (.lpi pa) (.tpi pc) (.tpi pd) pb
  | .lpi pa, .lpi pb, .explicit pc, .explicit pd => iiee E (.lpi pa) (.lpi pb) pc pd
  | .lpi pa, .lpi pb, .explicit pc, .lpi pd => iiie E (.lpi pa) (.lpi pd) (.lpi pb) pc
  | .lpi pa, .lpi pb, .explicit pc, .tpi pd => iiie E (.lpi pb) (.lpi pa) (.tpi pd) pc
  | .lpi pa, .lpi pb, .lpi pc, .explicit pd => iiie E (.lpi pa) (.lpi pb) (.lpi pc) pd
  | .lpi pa, .lpi pb, .lpi pc, .lpi pd => iiii E (.lpi pa) (.lpi pb) (.lpi pc) (.lpi pd)
  | .lpi pa, .lpi pb, .lpi pc, .tpi pd => iiii E (.lpi pa) (.lpi pb) (.lpi pc) (.tpi pd)
  | .lpi pa, .lpi pb, .tpi pc, .explicit pd => iiie E (.lpi pa) (.lpi pb) (.tpi pc) pd
  | .lpi pa, .lpi pb, .tpi pc, .lpi pd => iiii E (.lpi pb) (.lpi pa) (.lpi pd) (.tpi pc)
  | .lpi pa, .lpi pb, .tpi pc, .tpi pd => iiii E (.lpi pa) (.lpi pb) (.tpi pc) (.tpi pd)
  | .lpi pa, .tpi pb, .explicit pc, .explicit pd => iiee E (.lpi pa) (.tpi pb) pc pd
  | .lpi pa, .tpi pb, .explicit pc, .lpi pd => iiie E (.lpi pa) (.lpi pd) (.tpi pb) pc
  | .lpi pa, .tpi pb, .explicit pc, .tpi pd => iiie E (.lpi pa) (.tpi pd) (.tpi pb) pc
  | .lpi pa, .tpi pb, .lpi pc, .explicit pd => iiie E (.lpi pc) (.lpi pa) (.tpi pb) pd
  | .lpi pa, .tpi pb, .lpi pc, .lpi pd => iiii E (.lpi pc) (.lpi pd) (.lpi pa) (.tpi pb)
  | .lpi pa, .tpi pb, .lpi pc, .tpi pd => iiii E (.lpi pc) (.lpi pa) (.tpi pb) (.tpi pd)
  | .lpi pa, .tpi pb, .tpi pc, .explicit pd => iiie E (.lpi pa) (.tpi pb) (.tpi pc) pd
  | .lpi pa, .tpi pb, .tpi pc, .lpi pd => iiii E (.lpi pa) (.lpi pd) (.tpi pb) (.tpi pc)
  | .lpi pa, .tpi pb, .tpi pc, .tpi pd => iiii E (.lpi pa) (.tpi pb) (.tpi pc) (.tpi pd)
  | .tpi pa, .explicit pb, .explicit pc, .explicit pd => ieee E (.tpi pa) pb pc pd
  | .tpi pa, .explicit pb, .explicit pc, .lpi pd => iiee E (.lpi pd) (.tpi pa) pc pb
  | .tpi pa, .explicit pb, .explicit pc, .tpi pd => iiee E (.tpi pd) (.tpi pa) pc pb
  | .tpi pa, .explicit pb, .lpi pc, .explicit pd => iiee E (.lpi pc) (.tpi pa) pb pd
  | .tpi pa, .explicit pb, .lpi pc, .lpi pd => iiie E (.lpi pc) (.lpi pd) (.tpi pa) pb
  | .tpi pa, .explicit pb, .lpi pc, .tpi pd => iiie E (.lpi pc) (.tpi pd) (.tpi pa) pb
  | .tpi pa, .explicit pb, .tpi pc, .explicit pd => iiee E (.tpi pc) (.tpi pa) pb pd
  | .tpi pa, .explicit pb, .tpi pc, .lpi pd => iiie E (.lpi pd) (.tpi pa) (.tpi pc) pb
  | .tpi pa, .explicit pb, .tpi pc, .tpi pd => iiie E (.tpi pd) (.tpi pa) (.tpi pc) pb
  | .tpi pa, .lpi pb, .explicit pc, .explicit pd => iiee E (.lpi pb) (.tpi pa) pd pc
  | .tpi pa, .lpi pb, .explicit pc, .lpi pd => iiie E (.lpi pd) (.lpi pb) (.tpi pa) pc
  | .tpi pa, .lpi pb, .explicit pc, .tpi pd => iiie E (.lpi pb) (.tpi pa) (.tpi pd) pc
  | .tpi pa, .lpi pb, .lpi pc, .explicit pd => iiie E (.lpi pb) (.lpi pc) (.tpi pa) pd
  | .tpi pa, .lpi pb, .lpi pc, .lpi pd => iiii E (.lpi pd) (.lpi pc) (.lpi pb) (.tpi pa)
  | .tpi pa, .lpi pb, .lpi pc, .tpi pd => iiii E (.lpi pb) (.lpi pc) (.tpi pa) (.tpi pd)
  | .tpi pa, .lpi pb, .tpi pc, .explicit pd => iiie E (.lpi pb) (.tpi pc) (.tpi pa) pd
  | .tpi pa, .lpi pb, .tpi pc, .lpi pd => iiii E (.lpi pb) (.lpi pd) (.tpi pc) (.tpi pa)
  | .tpi pa, .lpi pb, .tpi pc, .tpi pd => iiii E (.lpi pb) (.tpi pa) (.tpi pd) (.tpi pc)
  | .tpi pa, .tpi pb, .explicit pc, .explicit pd => iiee E (.tpi pb) (.tpi pa) pd pc
  | .tpi pa, .tpi pb, .explicit pc, .lpi pd => iiie E (.lpi pd) (.tpi pb) (.tpi pa) pc
  | .tpi pa, .tpi pb, .explicit pc, .tpi pd => iiie E (.tpi pd) (.tpi pb) (.tpi pa) pc
  | .tpi pa, .tpi pb, .lpi pc, .explicit pd => iiie E (.lpi pc) (.tpi pa) (.tpi pb) pd
  | .tpi pa, .tpi pb, .lpi pc, .lpi pd => iiii E (.lpi pc) (.lpi pd) (.tpi pa) (.tpi pb)
  | .tpi pa, .tpi pb, .lpi pc, .tpi pd => iiii E (.lpi pc) (.tpi pd) (.tpi pa) (.tpi pb)
  | .tpi pa, .tpi pb, .tpi pc, .explicit pd => iiie E (.tpi pc) (.tpi pa) (.tpi pb) pd
  | .tpi pa, .tpi pb, .tpi pc, .lpi pd => iiii E (.lpi pd) (.tpi pc) (.tpi pb) (.tpi pa)
  | .tpi pa, .tpi pb, .tpi pc, .tpi pd => iiii E (.tpi pa) (.tpi pb) (.tpi pc) (.tpi pd)

/-- `orient2d_xy` (`orient2d.rs` lines 30-104). -/
def orient2dXY (E : Env K) (pa pb pc : Point K) : Option Ori :=
  match pa, pb, pc with
  | .explicit pa, .explicit pb, .explicit pc => some (doubleToSign (Geom.orient2d (pa.x, pa.y) (pb.x, pb.y) (pc.x, pc.y)))
  | .explicit pa, .explicit pb, .lpi pc => iee E 2 (.lpi pc) pa pb
  | .explicit pa, .explicit pb, .tpi pc => iee E 2 (.tpi pc) pa pb
  | .explicit pa, .lpi pb, .explicit pc => iee E 2 (.lpi pb) pc pa
  | .explicit pa, .lpi pb, .lpi pc => iie E 2 (.lpi pb) (.lpi pc) pa
  | .explicit pa, .lpi pb, .tpi pc => iie E 2 (.lpi pb) (.tpi pc) pa
  | .explicit pa, .tpi pb, .explicit pc => iee E 2 (.tpi pb) pc pa
  | .explicit pa, .tpi pb, .lpi pc => (iie E 2 (.lpi pc) (.tpi pb) pa).map Ori.reverse
  | .explicit pa, .tpi pb, .tpi pc => iie E 2 (.tpi pb) (.tpi pc) pa
  | .lpi pa, .explicit pb, .explicit pc => iee E 2 (.lpi pa) pb pc
  | .lpi pa, .explicit pb, .lpi pc => iie E 2 (.lpi pc) (.lpi pa) pb
  | .lpi pa, .explicit pb, .tpi pc => (iie E 2 (.lpi pa) (.tpi pc) pb).map Ori.reverse
  | .lpi pa, .lpi pb, .explicit pc => iie E 2 (.lpi pa) (.lpi pb) pc
  | .lpi pa, .lpi pb, .lpi pc => iii E 2 (.lpi pa) (.lpi pb) (.lpi pc)
  | .lpi pa, .lpi pb, .tpi pc => iii E 2 (.lpi pa) (.lpi pb) (.tpi pc)
  | .lpi pa, .tpi pb, .explicit pc => iie E 2 (.lpi pa) (.tpi pb) pc
  | .lpi pa, .tpi pb, .lpi pc => iii E 2 (.lpi pc) (.lpi pa) (.tpi pb)
  | .lpi pa, .tpi pb, .tpi pc => iii E 2 (.lpi pa) (.tpi pb) (.tpi pc)
  | .tpi pa, .explicit pb, .explicit pc => iee E 2 (.tpi pa) pb pc
  | .tpi pa, .explicit pb, .lpi pc => iie E 2 (.lpi pc) (.tpi pa) pb
  | .tpi pa, .explicit pb, .tpi pc => iie E 2 (.tpi pc) (.tpi pa) pb
  | .tpi pa, .lpi pb, .explicit pc => (iie E 2 (.lpi pb) (.tpi pa) pc).map Ori.reverse
  | .tpi pa, .lpi pb, .lpi pc => iii E 2 (.lpi pb) (.lpi pc) (.tpi pa)
  | .tpi pa, .lpi pb, .tpi pc => iii E 2 (.lpi pb) (.tpi pc) (.tpi pa)
  | .tpi pa, .tpi pb, .explicit pc => iie E 2 (.tpi pa) (.tpi pb) pc
  | .tpi pa, .tpi pb, .lpi pc => iii E 2 (.lpi pc) (.tpi pa) (.tpi pb)
  | .tpi pa, .tpi pb, .tpi pc => iii E 2 (.tpi pa) (.tpi pb) (.tpi pc)

/-- `orient2d_zx` (`orient2d.rs` lines 106-185). -/
def orient2dZX (E : Env K) (pa pb pc : Point K) : Option Ori :=
  match pa, pb, pc with
  | .explicit pa, .explicit pb, .explicit pc => some (doubleToSign (Geom.orient2d (pa.z, pa.x) (pb.z, pb.x) (pc.z, pc.x)))
  | .explicit pa, .explicit pb, .lpi pc => iee E 1 (.lpi pc) pa pb
  | .explicit pa, .explicit pb, .tpi pc => iee E 1 (.tpi pc) pa pb
  | .explicit pa, .lpi pb, .explicit pc => iee E 1 (.lpi pb) pc pa
  | .explicit pa, .lpi pb, .lpi pc => iie E 1 (.lpi pb) (.lpi pc) pa
  | .explicit pa, .lpi pb, .tpi pc => iie E 1 (.lpi pb) (.tpi pc) pa
  | .explicit pa, .tpi pb, .explicit pc => iee E 1 (.tpi pb) pc pa
  | .explicit pa, .tpi pb, .lpi pc => (iie E 1 (.lpi pc) (.tpi pb) pa).map Ori.reverse
  | .explicit pa, .tpi pb, .tpi pc => iie E 1 (.tpi pb) (.tpi pc) pa
  | .lpi pa, .explicit pb, .explicit pc => iee E 1 (.lpi pa) pb pc
  | .lpi pa, .explicit pb, .lpi pc => iie E 1 (.lpi pc) (.lpi pa) pb
  | .lpi pa, .explicit pb, .tpi pc => (iie E 1 (.lpi pa) (.tpi pc) pb).map Ori.reverse
  | .lpi pa, .lpi pb, .explicit pc => iie E 1 (.lpi pa) (.lpi pb) pc
  | .lpi pa, .lpi pb, .lpi pc => iii E 1 (.lpi pa) (.lpi pb) (.lpi pc)
  | .lpi pa, .lpi pb, .tpi pc => iii E 1 (.lpi pa) (.lpi pb) (.tpi pc)
  | .lpi pa, .tpi pb, .explicit pc => iie E 1 (.lpi pa) (.tpi pb) pc
  | .lpi pa, .tpi pb, .lpi pc => iii E 1 (.lpi pc) (.lpi pa) (.tpi pb)
  | .lpi pa, .tpi pb, .tpi pc => iii E 1 (.lpi pa) (.tpi pb) (.tpi pc)
  | .tpi pa, .explicit pb, .explicit pc => iee E 1 (.tpi pa) pb pc
  | .tpi pa, .explicit pb, .lpi pc => iie E 1 (.lpi pc) (.tpi pa) pb
  | .tpi pa, .explicit pb, .tpi pc => iie E 1 (.tpi pc) (.tpi pa) pb
  | .tpi pa, .lpi pb, .explicit pc => (iie E 1 (.lpi pb) (.tpi pa) pc).map Ori.reverse
  | .tpi pa, .lpi pb, .lpi pc => iii E 1 (.lpi pb) (.lpi pc) (.tpi pa)
  | .tpi pa, .lpi pb, .tpi pc => iii E 1 (.lpi pb) (.tpi pc) (.tpi pa)
  | .tpi pa, .tpi pb, .explicit pc => iie E 1 (.tpi pa) (.tpi pb) pc
  | .tpi pa, .tpi pb, .lpi pc => iii E 1 (.lpi pc) (.tpi pa) (.tpi pb)
  | .tpi pa, .tpi pb, .tpi pc => iii E 1 (.tpi pa) (.tpi pb) (.tpi pc)

/-- `orient2d_yz` (`orient2d.rs` lines 187-261). -/
def orient2dYZ (E : Env K) (pa pb pc : Point K) : Option Ori :=
  match pa, pb, pc with
  | .explicit pa, .explicit pb, .explicit pc => some (doubleToSign (Geom.orient2d (pa.y, pa.z) (pb.y, pb.z) (pc.y, pc.z)))
  | .explicit pa, .explicit pb, .lpi pc => iee E 0 (.lpi pc) pa pb
  | .explicit pa, .explicit pb, .tpi pc => iee E 0 (.tpi pc) pa pb
  | .explicit pa, .lpi pb, .explicit pc => iee E 0 (.lpi pb) pc pa
  | .explicit pa, .lpi pb, .lpi pc => iie E 0 (.lpi pb) (.lpi pc) pa
  | .explicit pa, .lpi pb, .tpi pc => iie E 0 (.lpi pb) (.tpi pc) pa
  | .explicit pa, .tpi pb, .explicit pc => iee E 0 (.tpi pb) pc pa
  | .explicit pa, .tpi pb, .lpi pc => (iie E 0 (.lpi pc) (.tpi pb) pa).map Ori.reverse
  | .explicit pa, .tpi pb, .tpi pc => iie E 0 (.tpi pb) (.tpi pc) pa
  | .lpi pa, .explicit pb, .explicit pc => iee E 0 (.lpi pa) pb pc
  | .lpi pa, .explicit pb, .lpi pc => iie E 0 (.lpi pc) (.lpi pa) pb
  | .lpi pa, .explicit pb, .tpi pc => (iie E 0 (.lpi pa) (.tpi pc) pb).map Ori.reverse
  | .lpi pa, .lpi pb, .explicit pc => iie E 0 (.lpi pa) (.lpi pb) pc
  | .lpi pa, .lpi pb, .lpi pc => iii E 0 (.lpi pa) (.lpi pb) (.lpi pc)
  | .lpi pa, .lpi pb, .tpi pc => iii E 0 (.lpi pa) (.lpi pb) (.tpi pc)
  | .lpi pa, .tpi pb, .explicit pc => iie E 0 (.lpi pa) (.tpi pb) pc
  | .lpi pa, .tpi pb, .lpi pc => iii E 0 (.lpi pc) (.lpi pa) (.tpi pb)
  | .lpi pa, .tpi pb, .tpi pc => iii E 0 (.lpi pa) (.tpi pb) (.tpi pc)
  | .tpi pa, .explicit pb, .explicit pc => iee E 0 (.tpi pa) pb pc
  | .tpi pa, .explicit pb, .lpi pc => iie E 0 (.lpi pc) (.tpi pa) pb
  | .tpi pa, .explicit pb, .tpi pc => iie E 0 (.tpi pc) (.tpi pa) pb
  | .tpi pa, .lpi pb, .explicit pc => (iie E 0 (.lpi pb) (.tpi pa) pc).map Ori.reverse
  | .tpi pa, .lpi pb, .lpi pc => iii E 0 (.lpi pb) (.lpi pc) (.tpi pa)
  | .tpi pa, .lpi pb, .tpi pc => iii E 0 (.lpi pb) (.tpi pc) (.tpi pa)
  | .tpi pa, .tpi pb, .explicit pc => iie E 0 (.tpi pa) (.tpi pb) pc
  | .tpi pa, .tpi pb, .lpi pc => iii E 0 (.lpi pc) (.tpi pa) (.tpi pb)
  | .tpi pa, .tpi pb, .tpi pc => iii E 0 (.tpi pa) (.tpi pb) (.tpi pc)

/-- `orient2d_by_axis` (`orient2d.rs` lines 9-23). -/
def orient2dByAxis (E : Env K) (pa pb pc : Point K) (axis : Nat) : Option Ori :=
  if axis = 0 then orient2dYZ E pa pb pc else if axis = 1 then orient2dZX E pa pb pc else orient2dXY E pa pb pc

/-- `less_than_on_x` (`less_than.rs` lines 8-20). -/
def lessThanOnX (E : Env K) (pa pb : Point K) : Option Ori :=
  match pa, pb with
  | .explicit pa, .explicit pb => ltEe 0 pa pb
  | .explicit pa, .lpi pb => ltIe E 0 (.lpi pb) pa
  | .explicit pa, .tpi pb => ltIe E 0 (.tpi pb) pa
  | .lpi pa, .explicit pb => ltIe E 0 (.lpi pa) pb
  | .lpi pa, .lpi pb => ltIi E 0 (.lpi pa) (.lpi pb)
  | .lpi pa, .tpi pb => ltIi E 0 (.lpi pa) (.tpi pb)
  | .tpi pa, .explicit pb => ltIe E 0 (.tpi pa) pb
  | .tpi pa, .lpi pb => ltIi E 0 (.lpi pb) (.tpi pa)
  | .tpi pa, .tpi pb => ltIi E 0 (.tpi pa) (.tpi pb)

/-- `less_than_on_y` (`less_than.rs` lines 22-34). -/
def lessThanOnY (E : Env K) (pa pb : Point K) : Option Ori :=
  match pa, pb with
  | .explicit pa, .explicit pb => ltEe 1 pa pb
  | .explicit pa, .lpi pb => ltIe E 1 (.lpi pb) pa
  | .explicit pa, .tpi pb => ltIe E 1 (.tpi pb) pa
  | .lpi pa, .explicit pb => ltIe E 1 (.lpi pa) pb
  | .lpi pa, .lpi pb => ltIi E 1 (.lpi pa) (.lpi pb)
  | .lpi pa, .tpi pb => ltIi E 1 (.lpi pa) (.tpi pb)
  | .tpi pa, .explicit pb => ltIe E 1 (.tpi pa) pb
  | .tpi pa, .lpi pb => ltIi E 1 (.lpi pb) (.tpi pa)
  | .tpi pa, .tpi pb => ltIi E 1 (.tpi pa) (.tpi pb)

/-- `less_than_on_z` (`less_than.rs` lines 36-48). -/
def lessThanOnZ (E : Env K) (pa pb : Point K) : Option Ori :=
  match pa, pb with
  | .explicit pa, .explicit pb => ltEe 2 pa pb
  | .explicit pa, .lpi pb => ltIe E 2 (.lpi pb) pa
  | .explicit pa, .tpi pb => ltIe E 2 (.tpi pb) pa
  | .lpi pa, .explicit pb => ltIe E 2 (.lpi pa) pb
  | .lpi pa, .lpi pb => ltIi E 2 (.lpi pa) (.lpi pb)
  | .lpi pa, .tpi pb => ltIi E 2 (.lpi pa) (.tpi pb)
  | .tpi pa, .explicit pb => ltIe E 2 (.tpi pa) pb
  | .tpi pa, .lpi pb => ltIi E 2 (.lpi pb) (.tpi pa)
  | .tpi pa, .tpi pb => ltIi E 2 (.tpi pa) (.tpi pb)

end Verif.Pred
