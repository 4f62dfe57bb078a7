import Verif.Model.Registration
import Verif.Model.NeighborList

/-!
# Environment matching

Model of freud/environment/MatchEnv.h and MatchEnv.cc. Coordinates are exact. `none` is an
exception or undefined behaviour (an access outside an array). A registration is given by a function
`fit` from reference points and points to the outcome of `RegisterBruteForce::Fit`.
-/

namespace Freud

/-- `Environment`, freud/environment/MatchEnv.h:29-52. -/
structure Env (K : Type*) where
  envInd : ℕ
  vecs : List (Vec3 K)
  ghost : Bool
  numVecs : ℕ
  vecInd : List ℕ
  rot : Mat3 K

/-- The outcome of a registration of the second vectors with the first. -/
abbrev Fitter (K : Type*) := List (Vec3 K) → List (Vec3 K) → Option (Reg.FitState K)

namespace Env
variable {K : Type*} [Field K] [LinearOrder K]

/-- The constructor, freud/environment/MatchEnv.h:32, 42-51. -/
def new (ghost : Bool) : Env K := ⟨0, [], ghost, 0, [], Mat3.one⟩

/-- `addVec`, freud/environment/MatchEnv.h:35-40. -/
def addVec (e : Env K) (v : Vec3 K) : Env K :=
  { e with vecs := e.vecs ++ [v], vecInd := e.vecInd ++ [e.numVecs], numVecs := e.numVecs + 1 }

/-- The vectors in the proper order and orientation, freud/environment/MatchEnv.cc:298-304
(`isSimilar`) and 267-275 (`getIndividualEnv`). -/
def proper (e : Env K) : Option (List (Vec3 K)) :=
  (List.range e.vecs.length).mapM
    (fun m => (e.vecInd[m]?).bind (fun k => (e.vecs[k]?).map e.rot.mulVec))

end Env

namespace MatchEnv
variable {K : Type*} [Field K] [LinearOrder K]

/-- The double loop without registration, freud/environment/MatchEnv.cc:333-352. -/
def compareAll (thrSq : K) (v1 v2 : List (Vec3 K)) : BiMap ℕ ℕ :=
  v1.zipIdx.foldl (fun m a =>
    v2.zipIdx.foldl (fun m b =>
      if Reg.dist2 a.1 b.1 < thrSq then (m.emplace a.2 b.2).1 else m) m) BiMap.new

/-- The loop over the registered pairs, freud/environment/MatchEnv.cc:317-329. -/
def comparePairs (thrSq : K) (v1 v2 : List (Vec3 K)) (pairs : List (ℕ × ℕ)) : Option (BiMap ℕ ℕ) :=
  pairs.foldlM (fun m p => (v1[p.1]?).bind fun a => (v2[p.2]?).map fun b =>
    if Reg.dist2 a b < thrSq then (m.emplace p.1 p.2).1 else m) BiMap.new

/-- `isSimilar`, freud/environment/MatchEnv.cc:281-361; `reg` is `some fit` with registration. -/
def isSimilar (e1 e2 : Env K) (thrSq : K) (reg : Option (Fitter K)) : Option (Mat3 K × BiMap ℕ ℕ) :=
  if e1.vecs.length ≠ e2.vecs.length then some (Mat3.one, BiMap.new)
  else e1.proper.bind fun v1 => e2.proper.bind fun v2 =>
    (match reg with
      | none => some (Mat3.one, compareAll thrSq v1 v2)
      | some fit => (fit v1 v2).bind fun st =>
          (comparePairs thrSq v1 (v2.map st.rotation.mulVec) st.map.pairs).map fun m =>
            (st.rotation, m)).map fun (rm : Mat3 K × BiMap ℕ ℕ) =>
      if rm.2.size = e1.vecs.length then rm else (rm.1, BiMap.new)

/-- The environments of `makeEnvironments`, freud/environment/MatchEnv.cc:387-413 (`env_ind` does not
matter here). -/
def makeEnvironment (wrap : Vec3 K → Vec3 K) (pts : List (Vec3 K)) : Env K :=
  pts.foldl (fun e v => e.addVec (wrap v)) (Env.new true)

/-- `isSimilar` for two lists of points, freud/environment/MatchEnv.cc:363-385, as called by
`_is_similar_motif` (freud/environment.py:595-644): the points after the call and the map. `none` also
when the numbers of points differ (`ValueError`, freud/environment.py:632-637). -/
def isSimilarPoints (wrap : Vec3 K → Vec3 K) (ref pts : List (Vec3 K)) (thr : K)
    (reg : Option (Fitter K)) : Option (List (Vec3 K) × (ℕ → Option ℕ)) :=
  if ref.length ≠ pts.length then none
  else (isSimilar (makeEnvironment wrap ref) (makeEnvironment wrap pts) (thr * thr) reg).map fun rm =>
    ((makeEnvironment wrap pts).vecs.map rm.1.mulVec, rm.2.asMap)

/-- `minimizeRMSD`, freud/environment/MatchEnv.cc:415-463: the rotation, the map and the RMSD. -/
def minimizeRMSD (sqrt : K → K) (sort : List (ℕ × K) → List (ℕ × K)) (e1 e2 : Env K)
    (reg : Option (Fitter K)) : Option (Mat3 K × BiMap ℕ ℕ × K) :=
  if e1.vecs.length ≠ e2.vecs.length then some (Mat3.one, BiMap.new, -1)
  else e1.proper.bind fun v1 => e2.proper.bind fun v2 =>
    match reg with
    | some fit => (fit v1 v2).map fun st => (st.rotation, st.map, st.rmsd)
    | none => (Reg.alignedRMSDTree sqrt sort v1 v2).map fun r => (Mat3.one, r.2, r.1)

end MatchEnv

/-- `EnvDisjointSet`, freud/environment/MatchEnv.h:55-95. -/
structure EnvDJ (K : Type*) where
  s : List (Env K)
  rank : List ℕ

namespace EnvDJ
variable {K : Type*} [Field K] [LinearOrder K]

/-- The first loop of `find`, freud/environment/MatchEnv.cc:154-160; `none` also when the head is not
reached after `fuel` rounds. -/
def head (s : List (Env K)) : ℕ → ℕ → Option ℕ
  | 0, _ => none
  | fuel + 1, r => (s[r]?).bind fun e => if e.envInd ≠ r then head s fuel e.envInd else some r

/-- The second loop of `find`, freud/environment/MatchEnv.cc:162-169. -/
def compress (r : ℕ) : ℕ → List (Env K) → ℕ → Option (List (Env K))
  | 0, _, _ => none
  | fuel + 1, s, i => if i ≠ r then
      (s[i]?).bind fun e => compress r fuel (s.set i { e with envInd := r }) e.envInd
    else some s

/-- `find`, freud/environment/MatchEnv.cc:152-171. -/
def find (d : EnvDJ K) (c : ℕ) : Option (EnvDJ K × ℕ) :=
  (head d.s (d.s.length + 1) c).bind fun r =>
    (compress r (d.s.length + 1) d.s c).map fun s' => ({ d with s := s' }, r)

/-- One round of the loop of `findSet`, freud/environment/MatchEnv.cc:180-190. -/
def findSetStep (m : ℕ) (st : EnvDJ K × List ℕ) (i : ℕ) : Option (EnvDJ K × List ℕ) :=
  (st.1.s[i]?).bind fun e => (st.1.find e.envInd).map fun r =>
    (r.1, if r.2 = m then st.2 ++ [i] else st.2)

/-- `findSet`, freud/environment/MatchEnv.cc:173-200; `none` when it throws. -/
def findSet (d : EnvDJ K) (m : ℕ) : Option (EnvDJ K × List ℕ) :=
  ((List.range d.s.length).foldlM (findSetStep m) (d, [])).bind fun st =>
    if st.2.isEmpty then none else some st

/-- The loop that reorders the vector indices of a node, freud/environment/MatchEnv.cc:51-57 and
120-126. `look` is `vec_map.left` or `vec_map.right` (`operator[]` of a present key; it is `none` for an
absent key, for which the code would insert a pair). -/
def reorder (look : ℕ → Option ℕ) (size : ℕ) (old : List ℕ) : Option (List ℕ) :=
  (List.range size).foldlM (fun v i => (look i).bind fun k => (old[k]?).bind fun x =>
    if i < v.length then some (v.set i x) else none) old

/-- One round of the loop over the set in `merge`, freud/environment/MatchEnv.cc:40-69, 84-105 and
109-143: the node joins the set of `t`. -/
def absorb (t : ℕ) (look : ℕ → Option ℕ) (size : ℕ) (rot : Mat3 K) (d : EnvDJ K) (node : ℕ) :
    Option (EnvDJ K) :=
  (d.s[node]?).bind fun e => (reorder look size e.vecInd).bind fun vi => (d.s[t]?).bind fun et =>
    let s' := d.s.set node { e with vecInd := vi, envInd := et.envInd, rot := rot.mul e.rot }
    (s'[t]?).bind fun et' => (d.rank[et'.envInd]?).map fun rk =>
      ⟨s', d.rank.set et'.envInd (rk + 1)⟩

/-- `merge`, freud/environment/MatchEnv.cc:31-150. -/
def merge (d : EnvDJ K) (a b : ℕ) (m : BiMap ℕ ℕ) (rot : Mat3 K) : Option (EnvDJ K) :=
  (d.s[a]?).bind fun ea => (d.s[b]?).bind fun eb =>
    (d.rank[ea.envInd]?).bind fun ra => (d.rank[eb.envInd]?).bind fun rb =>
      if ra = rb then
        (d.find b).bind fun f => (f.1.findSet f.2).bind fun fs =>
          fs.2.foldlM (absorb a m.leftAt m.size rot) fs.1
      else if ra > rb then
        (d.find b).bind fun f => (f.1.findSet f.2).bind fun fs =>
          fs.2.foldlM (absorb a m.leftAt m.size rot) fs.1
      else
        (d.find a).bind fun f => (f.1.findSet f.2).bind fun fs =>
          fs.2.foldlM (absorb b m.rightAt m.size rot.transpose) fs.1

/-- `getIndividualEnv`, freud/environment/MatchEnv.cc:256-278. -/
def getIndividualEnv (d : EnvDJ K) (m : ℕ) : Option (List (Vec3 K)) :=
  (d.s[m]?).bind Env.proper

/-- Adds the vectors of one environment to the sums, freud/environment/MatchEnv.cc:219-231. -/
def addEnv : List (Vec3 K) → List (Vec3 K) → List (Vec3 K)
  | acc, [] => acc
  | [], v :: vs => v :: addEnv [] vs
  | a :: as, v :: vs => (a + v) :: addEnv as vs

/-- One round of the loop of `getAvgEnv`, freud/environment/MatchEnv.cc:209-236. -/
def avgStep (m : ℕ) (st : EnvDJ K × List (Vec3 K) × ℕ) (i : ℕ) : Option (EnvDJ K × List (Vec3 K) × ℕ) :=
  (st.1.s[i]?).bind fun e =>
    if e.ghost then some st
    else (st.1.find e.envInd).bind fun r =>
      if r.2 = m then (r.1.s[i]?).bind fun e' => e'.proper.map fun vs =>
        (r.1, addEnv st.2.1 vs, st.2.2 + 1)
      else some (r.1, st.2)

/-- `getAvgEnv`, freud/environment/MatchEnv.cc:202-254. -/
def getAvgEnv (d : EnvDJ K) (m : ℕ) : Option (EnvDJ K × List (Vec3 K)) :=
  ((List.range d.s.length).foldlM (avgStep m) (d, [], 0)).bind fun st =>
    if st.2.2 = 0 then none else some (st.1, st.2.1.map (fun v => Vec3.smul (1 / (st.2.2 : K)) v))

end EnvDJ

namespace MatchEnv
variable {K : Type*} [Field K] [LinearOrder K]

/-- `buildEnv`, freud/environment/MatchEnv.cc:503-522. The cursor `bond` is the rest of the bonds. -/
def buildEnv (i envInd : ℕ) (rest : List (Bond K)) : Env K × List (Bond K) :=
  ((rest.takeWhile (fun b => decide (b.q = i))).foldl
      (fun e b => if i ≠ b.p then e.addVec b.vec else e) { (Env.new false : Env K) with envInd := envInd },
    rest.dropWhile (fun b => decide (b.q = i)))

/-- The loop that adds all the environments, freud/environment/MatchEnv.cc:553-557. -/
def buildAll : List ℕ → List (Bond K) → List (Env K)
  | [], _ => []
  | i :: is, rest =>
    let r := buildEnv i i rest
    r.1 :: buildAll is r.2

/-- The state of the loop over the bonds. `similar` and `merged` are not in the code: they record the
bonds whose environments were found similar, and those that led to a merge. -/
structure LoopState (K : Type*) where
  dj : EnvDJ K
  similar : List (ℕ × ℕ)
  merged : List (ℕ × ℕ)

/-- The body of the loop over the neighbors, freud/environment/MatchEnv.cc:566-584. Registrations are
random, so each bond (by its place in the list) has its own. -/
def bondStep (thrSq : K) (reg : ℕ → Option (Fitter K)) (i : ℕ) (st : LoopState K) (b : Bond K × ℕ) :
    Option (LoopState K) :=
  let j := b.1.p
  (st.dj.s[i]?).bind fun ei => (st.dj.s[j]?).bind fun ej =>
    (isSimilar ei ej thrSq (reg b.2)).bind fun rm =>
      if rm.2.size = 0 then some st
      else (st.dj.find i).bind fun fi => (fi.1.find j).bind fun fj =>
        if fi.2 ≠ fj.2 then (fj.1.merge i j rm.2 rm.1).map fun d' =>
          ⟨d', st.similar ++ [(i, j)], st.merged ++ [(i, j)]⟩
        else some ⟨fj.1, st.similar ++ [(i, j)], st.merged⟩

/-- The loops over the points and their neighbors, freud/environment/MatchEnv.cc:559-585. -/
def pointLoop (thrSq : K) (reg : ℕ → Option (Fitter K)) :
    List ℕ → List (Bond K × ℕ) → LoopState K → Option (LoopState K)
  | [], _, st => some st
  | i :: is, rest, st =>
    ((rest.takeWhile (fun b => decide (b.1.q = i))).foldlM (bondStep thrSq reg i) st).bind
      (pointLoop thrSq reg is (rest.dropWhile (fun b => decide (b.1.q = i))))

/-- The results of an `EnvironmentCluster`: `m_point_environments`, `m_cluster_environments`,
`m_env_index`, `m_num_clusters` (freud/environment/MatchEnv.h:220, 309-313). -/
structure Obj (K : Type*) where
  pointEnvs : List (List (Vec3 K))
  clusterEnvs : List (List (Vec3 K))
  envIndex : List ℕ
  numClusters : ℕ

/-- A new object. -/
def Obj.new : Obj K := ⟨[], [], [], 0⟩

/-- `m_point_environments.emplace_back()` and the loop after it, freud/environment/MatchEnv.cc:628-632,
718-722: the vectors are appended to the entry of the point. -/
def appendEnv (pe : List (List (Vec3 K))) (i : ℕ) (vs : List (Vec3 K)) : List (List (Vec3 K)) :=
  (pe ++ [[]]).modify i (· ++ vs)

/-- The state of the loop of `populateEnv`: `label_map` (a `std::map`), `cluster_env` (its keys are
`0, 1, …` in the order of insertion), the labels written so far, the point environments. `cur_set` is
the number of cluster environments. -/
structure PopState (K : Type*) where
  dj : EnvDJ K
  labels : List (ℕ × ℕ)
  clusterEnvs : List (List (Vec3 K))
  index : List ℕ
  pointEnvs : List (List (Vec3 K))

/-- The body of the loop of `populateEnv`, freud/environment/MatchEnv.cc:602-635. -/
def popStep (st : PopState K) (i : ℕ) : Option (PopState K) :=
  (st.dj.s[i]?).bind fun e =>
    if e.ghost then some st
    else (st.dj.getIndividualEnv i).bind fun part => (st.dj.find i).bind fun f =>
      match st.labels.lookup f.2 with
      | none => (f.1.getAvgEnv f.2).map fun g =>
          ⟨g.1, st.labels ++ [(f.2, st.clusterEnvs.length)], st.clusterEnvs ++ [g.2],
            st.index ++ [st.clusterEnvs.length], appendEnv st.pointEnvs st.index.length part⟩
      | some l => some ⟨f.1, st.labels, st.clusterEnvs, st.index ++ [l],
          appendEnv st.pointEnvs st.index.length part⟩

/-- `populateEnv`, freud/environment/MatchEnv.cc:592-646, on a given object. -/
def populate (d : EnvDJ K) (o : Obj K) : Option (Obj K) :=
  ((List.range d.s.length).foldlM popStep ⟨d, [], [], [], o.pointEnvs⟩).map fun st =>
    ⟨st.pointEnvs, st.clusterEnvs, st.index, st.clusterEnvs.length⟩

/-- The disjoint set before the loop over the bonds, freud/environment/MatchEnv.cc:546-557. -/
def initDJ (np : ℕ) (envBonds : List (Bond K)) : EnvDJ K :=
  ⟨buildAll (List.range np) envBonds, List.replicate np 0⟩

/-- The loops of `EnvironmentCluster::compute`, freud/environment/MatchEnv.cc:546-585. -/
def clusterLoop (np : ℕ) (bonds envBonds : List (Bond K)) (thr : K) (reg : ℕ → Option (Fitter K)) :
    Option (LoopState K) :=
  pointLoop (thr * thr) reg (List.range np) bonds.zipIdx ⟨initDJ np envBonds, [], []⟩

/-- `EnvironmentCluster::compute`, freud/environment/MatchEnv.cc:524-590, for given neighbor lists;
`none` also when `validate` throws (freud/locality/NeighborList.cc:359-369). -/
def compute (o : Obj K) (np : ℕ) (nlist envNlist : NList K) (thr : K) (reg : ℕ → Option (Fitter K)) :
    Option (Obj K) :=
  if nlist.numQueryPoints = np ∧ nlist.numPoints = np ∧ envNlist.numQueryPoints = np ∧
      envNlist.numPoints = np then
    (clusterLoop np nlist.bonds envNlist.bonds thr reg).bind fun st => populate st.dj o
  else none

/-- The results of an `EnvironmentMotifMatch`: `m_point_environments`, `m_matches`. -/
structure MotifObj (K : Type*) where
  pointEnvs : List (List (Vec3 K))
  isMatch : List Bool

/-- The loop variables of `EnvironmentMotifMatch::compute`. -/
structure MotifState (K : Type*) where
  dj : EnvDJ K
  rest : List (Bond K)
  obj : MotifObj K

/-- The body of the loop of `EnvironmentMotifMatch::compute`, freud/environment/MatchEnv.cc:697-724. -/
def motifStep (thrSq : K) (reg : ℕ → Option (Fitter K)) (st : MotifState K) (i : ℕ) :
    Option (MotifState K) :=
  let dummy := i + 1
  let r := buildEnv i dummy st.rest
  let dj : EnvDJ K := { st.dj with s := st.dj.s ++ [r.1] }
  (dj.s[0]?).bind fun e0 => (dj.s[dummy]?).bind fun ei =>
    (isSimilar e0 ei thrSq (reg i)).bind fun rm =>
      (if rm.2.size = 0 then some (dj, st.obj.isMatch)
        else (dj.merge 0 dummy rm.2 rm.1).map fun d' => (d', st.obj.isMatch.set i true)).bind fun dm =>
        (dm.1.getIndividualEnv dummy).map fun part =>
          ⟨dm.1, r.2, ⟨appendEnv st.obj.pointEnvs i part, dm.2⟩⟩

/-- `EnvironmentMotifMatch::compute`, freud/environment/MatchEnv.cc:651-725; the environment of the motif
(lines 670-685) is built as in `makeEnvironments`. -/
def motifCompute (o : MotifObj K) (np : ℕ) (nlist : NList K) (wrap : Vec3 K → Vec3 K)
    (motif : List (Vec3 K)) (thr : K) (reg : ℕ → Option (Fitter K)) : Option (MotifObj K) :=
  if nlist.numQueryPoints = np ∧ nlist.numPoints = np then
    ((List.range np).foldlM (motifStep (thr * thr) reg)
      ⟨⟨[makeEnvironment wrap motif], List.replicate (np + 1) 0⟩, nlist.bonds,
        ⟨o.pointEnvs, List.replicate np false⟩⟩).map (·.obj)
  else none

/-- The results of an `EnvironmentRMSDMinimizer`: `m_point_environments`, `m_rmsds`. -/
structure RmsdObj (K : Type*) where
  pointEnvs : List (List (Vec3 K))
  rmsds : List K

/-- The loop variables of `EnvironmentRMSDMinimizer::compute`. -/
structure RmsdState (K : Type*) where
  dj : EnvDJ K
  rest : List (Bond K)
  obj : RmsdObj K

/-- The body of the loop of `EnvironmentRMSDMinimizer::compute`, freud/environment/MatchEnv.cc:772-805. -/
def rmsdStep (sqrt : K → K) (sort : List (ℕ × K) → List (ℕ × K)) (reg : ℕ → Option (Fitter K))
    (st : RmsdState K) (i : ℕ) : Option (RmsdState K) :=
  let dummy := i + 1
  let r := buildEnv i dummy st.rest
  let dj : EnvDJ K := { st.dj with s := st.dj.s ++ [r.1] }
  (dj.s[0]?).bind fun e0 => (dj.s[dummy]?).bind fun ei =>
    (minimizeRMSD sqrt sort e0 ei (reg i)).bind fun rm =>
      (if rm.2.1.size = 0 then some dj else dj.merge 0 dummy rm.2.1 rm.1).bind fun d' =>
        (d'.getIndividualEnv dummy).map fun part =>
          ⟨d', r.2, ⟨appendEnv st.obj.pointEnvs i part, st.obj.rmsds.set i rm.2.2⟩⟩

/-- `EnvironmentRMSDMinimizer::compute`, freud/environment/MatchEnv.cc:730-806. The neighbor list is not
validated. -/
def rmsdCompute (sqrt : K → K) (sort : List (ℕ × K) → List (ℕ × K)) (o : RmsdObj K) (np : ℕ)
    (nlist : NList K) (wrap : Vec3 K → Vec3 K) (motif : List (Vec3 K)) (reg : ℕ → Option (Fitter K)) :
    Option (RmsdObj K) :=
  ((List.range np).foldlM (rmsdStep sqrt sort reg)
    ⟨⟨[makeEnvironment wrap motif], List.replicate (np + 1) 0⟩, nlist.bonds,
      ⟨o.pointEnvs, List.replicate np 0⟩⟩).map (·.obj)

end MatchEnv
end Freud
