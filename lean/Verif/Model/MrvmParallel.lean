import Verif.Model.Mrvm
/-!
The OpenMP loop of builder/multi_resolution_voxel_map.cc:75-118 (`USE_OPENMP` is on by default,
CMakeLists.txt:18): the points of a cloud are processed by several threads.  Each point is a thread of
its own here, which covers every distribution of the points over real threads.  A thread is a list of
atomic actions on the shared table with a few local variables; a schedule picks the thread of each
step.  Reads and writes of the plain `probability` byte and the check-then-act pairs at 93-96 and
99-102 are separate actions (formally the unsynchronised byte accesses are already undefined; this
model gives them the meaning hardware gives them).
-/
namespace Verif

/-- Local variables of a thread: the value read from `probability`, the outcome of the last test. -/
structure Local where
  reg : Nat := 0
  flag : Bool := false

/-- The atomic actions. -/
inductive Act
  /-- .cc:88 `[e].need_update = kFalse` (creating the voxel) -/
  | mark (e : Voxel)
  /-- .cc:94-95 comparison of the intensities -/
  | compare (e : Voxel) (p : InnerPoint Rat)
  /-- .cc:96 -/
  | brighten (e : Voxel) (p : InnerPoint Rat)
  /-- .cc:98 read of `prob` -/
  | readProb (e : Voxel)
  /-- .cc:98 write of `prob` -/
  | writeProb (e : Voxel)
  /-- .cc:99 `points.size() < max` -/
  | checkSize (e : Voxel)
  /-- .cc:101 `push_back` -/
  | push (e : Voxel) (p : InnerPoint Rat)
  /-- .cc:109-112 the voxel is stored and `need_update` -/
  | look (v : Voxel)
  /-- .cc:114-115 read -/
  | readMiss (v : Voxel)
  /-- .cc:115 write -/
  | writeMiss (v : Voxel)
  deriving DecidableEq

/-- .cc:79-117 as actions, for the ray `path ++ [e]`. -/
def pointProgram (p : InnerPoint Rat) (path : List Voxel) (e : Voxel) : List Act :=
  [.mark e, .compare e p, .brighten e p, .readProb e, .writeProb e, .checkSize e, .push e p] ++
    path.flatMap (fun v => [.look v, .readMiss v, .writeMiss v])

/-- Write through a reference to a stored voxel (every thread marks, i.e. creates, the voxel before it
writes to it, and looks up the others before). -/
def VMap.modify (m : VMap) (v : Voxel) (f : Cell → Cell) : VMap :=
  match m v with
  | none => m
  | some c => m.set v (f c)

/-- .cc:109-112 : stored and `need_update`. -/
def VMap.free (m : VMap) (v : Voxel) : Bool :=
  match m v with
  | none => false
  | some c => c.needUpdate

/-- One action. -/
def act (cfg : MrvmCfg) (m : VMap) (l : Local) : Act → VMap × Local
  | .mark e => (m.set e { (m e).getD {} with needUpdate := false }, l)
  | .compare e p => (m, { l with flag := decide (truncInt p.intensity > ((m e).getD {}).maxIntensity) })
  | .brighten e p =>
    (if l.flag then m.modify e (fun c => { c with maxIntensity := truncInt p.intensity }) else m, l)
  | .readProb e => (m, { l with reg := ((m e).getD {}).prob })
  | .writeProb e => (m.modify e (fun c => { c with prob := updateProb cfg.hit l.reg }), l)
  | .checkSize e => (m, { l with flag := decide ((((m e).getD {}).points.length : Int) < cfg.maxPoints) })
  | .push e p => (if l.flag then m.modify e (fun c => { c with points := c.points ++ [p] }) else m, l)
  | .look v => (m, { l with flag := m.free v })
  | .readMiss v => (m, if l.flag then { l with reg := ((m v).getD {}).prob } else l)
  | .writeMiss v => (if l.flag then m.modify v (fun c => { c with prob := updateProb cfg.miss l.reg }) else m, l)

/-- Shared table and the threads (local variables and remaining actions). -/
structure ParState where
  map : VMap
  threads : List (Local × List Act)

/-- Thread `i` does its next action (nothing if it is finished). -/
def ParState.step (cfg : MrvmCfg) (s : ParState) (i : Nat) : ParState :=
  match s.threads[i]? with
  | some (l, a :: as) =>
    { map := (act cfg s.map l a).1, threads := s.threads.set i ((act cfg s.map l a).2, as) }
  | _ => s

def ParState.run (cfg : MrvmCfg) (s : ParState) (schedule : List Nat) : ParState :=
  schedule.foldl (ParState.step cfg) s

/-- The thread of a point; an empty ray (which the caster never returns) does nothing. -/
def pointThread (cfg : MrvmCfg) (origin : Vec3 Rat) (p : InnerPoint Rat) : Outcome (Local × List Act) := do
  let path ← voxelCastingBresenham origin ⟨p.x, p.y, p.z⟩ cfg.resolution
  match path.getLast? with
  | none => return ({}, [])
  | some e => return ({}, pointProgram p path.dropLast e)

def pointThreads (cfg : MrvmCfg) (origin : Vec3 Rat) : List (InnerPoint Rat) → Outcome (List (Local × List Act))
  | [] => .ok []
  | p :: ps => do
    let t ← pointThread cfg origin p
    let ts ← pointThreads cfg origin ps
    return t :: ts

/-- All threads are finished: the barrier at the end of the parallel loop. -/
def ParState.finished (s : ParState) : Bool := s.threads.all (fun t => t.2.isEmpty)

end Verif
