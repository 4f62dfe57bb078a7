import Verif.Spec.PairFrames
import Verif.Spec.BondOrder
import Verif.Props.Sources

/-!
# Specification: points and query points exchanged
-/

namespace Freud.Spec
open Freud

/-- `f'` is the frame `f` with the points given as query points and the query points as points, each with
its own data, perhaps with another source of neighbors and another schedule. -/
structure Exchanged {D : Type*} (f f' : DataFrame D) : Prop where
  box : f'.box = f.box
  pts : f'.pts = f.qpts
  qpts : f'.qpts = f.pts
  data : ∀ i < f.qpts.length, f'.data i = f.queryData i
  queryData : ∀ i < f.pts.length, f'.queryData i = f.data i
  excl : f'.excl = f.excl
  cutoff : f'.cutoff = f.cutoff
  inner : f'.inner = f.inner

/-- The same for a frame of an RDF, which has no data of the particles. -/
structure ExchangedFrame (f f' : RDFFrame) : Prop where
  box : f'.box = f.box
  pts : f'.pts = f.qpts
  qpts : f'.qpts = f.pts
  excl : f'.excl = f.excl

end Freud.Spec
