import Verif.Solver.KdlDynamics

/-!
# Calls of the chain solver from several threads

`KdlSolver` keeps a mutex `mtx` (/repo/libraries/YarpPlugins/KdlSolver/KdlSolver.hpp:85). A change of the tool and
every call of a solver of KDL is made with the mutex taken, but for one. The number of joints and of segments of the
chain are read without it. Such a read is undefined (a data race) if another thread changes the same thing meanwhile:
`appendLink` adds a segment, and `restoreOriginalChain` assigns the whole chain, numbers included.

What is done with the mutex taken is one step; a read without it is two, its beginning and its end, so that other
threads may do something in between. Log messages are left out.
-/

namespace KD.Threads

open KdlVectorConverter

/-- Calls of the solver that use the chain, with their arguments (`poseDiff` and `changeOrigin` do not).
/repo/libraries/YarpPlugins/KdlSolver/KdlSolver.hpp:36-74. -/
inductive Req
  | append (x : List ℝ)
  | restore
  | fwdKin (q : List ℝ)
  | invKin (xd qGuess : List ℝ) (frame : SolverFrame)
  | diffInvKin (q xdot : List ℝ) (frame : SolverFrame)
  | invDynStatic (q : List ℝ)
  | invDyn (q qdot qdotdot ftip : List ℝ) (frame : SolverFrame)

/-- What a call gives: undefined behaviour because of the length of an argument, a returned `false`, or `true` and a
vector (empty for the changes of the tool). The methods of /repo/libraries/YarpPlugins/KdlSolver/KdlSolver.hpp:36-74. -/
abbrev Answer := Option (Option (List ℝ))

/-- What is changed while the mutex is taken, /repo/libraries/YarpPlugins/KdlSolver/ICartesianSolverImpl.cpp:33-63. -/
inductive Writes | nothing | segments | all
  deriving DecidableEq

/-- The rest of a call: return, read the number of joints or the segments of the chain without the mutex, or do
something with it. The bodies in /repo/libraries/YarpPlugins/KdlSolver/ICartesianSolverImpl.cpp:33-338. -/
inductive Body
  | ret (a : Answer)
  | joints (k : ℕ → Body)
  | segments (k : List Link → Body)
  | locked (w : Writes) (update : DynSolver → DynSolver) (k : DynSolver → Body)

/-- The inverse solvers of KDL, for a chain and the size of the arrays of joints.
External: `ikSolverPos` and `ikSolverVel` of /repo/libraries/YarpPlugins/KdlSolver/KdlSolver.hpp:89-91. -/
structure Solvers where
  pos : PosSolver
  vel : VelSolver

/-- The end of `invKin`, `diffInvKin` and `invDyn`: `resize` and a loop over the joints of the chain, whose number is
read again without the mutex; a failure is returned before.
/repo/libraries/YarpPlugins/KdlSolver/ICartesianSolverImpl.cpp:157-162, 213-218, 255-260 and 330-335. -/
def Body.store : Answer → Body
  | some (some r) => .joints fun n => .ret (if n ≤ r.length then some (some (r.take n)) else none)
  | a => .ret a

/-- What `fwdKin` does with the mutex taken, with arrays of `n` joints.
/repo/libraries/YarpPlugins/KdlSolver/ICartesianSolverImpl.cpp:82-98. -/
noncomputable def fwdKinWith (n : ℕ) (c : Chain) (q : List ℝ) : Answer := do
  let qInRad ← KdlSolver.toRadians n q
  let f ← c.fk qInRad
  return some (frameToVector f)

/-- What `invKin` does with the mutex taken, with arrays of `n` joints.
/repo/libraries/YarpPlugins/KdlSolver/ICartesianSolverImpl.cpp:118-155. -/
noncomputable def invKinWith (pos : PosSolver) (n : ℕ) (c : Chain) (xd qGuess : List ℝ) (frame : SolverFrame) :
    Answer := do
  let frameXd := vectorToFrame xd
  let qGuessInRad ← KdlSolver.toRadians n qGuess
  match frame with
  | .other => return none
  | .tcp =>
    let f ← c.fk qGuessInRad
    let (ret, kdlq) := pos c qGuessInRad (f * frameXd)
    return if ret < 0 then none else some (kdlq.map (· * rad2deg))
  | .base =>
    let (ret, kdlq) := pos c qGuessInRad frameXd
    return if ret < 0 then none else some (kdlq.map (· * rad2deg))

/-- What `diffInvKin` does with the mutex taken, with arrays of `n` joints.
/repo/libraries/YarpPlugins/KdlSolver/ICartesianSolverImpl.cpp:171-211. -/
noncomputable def diffInvKinWith (vel : VelSolver) (n : ℕ) (c : Chain) (q xdot : List ℝ) (frame : SolverFrame) :
    Answer := do
  let qInRad ← KdlSolver.toRadians n q
  let kdlxdot := vectorToTwist xdot
  match frame with
  | .other => return none
  | .tcp =>
    let f ← c.fk qInRad
    let (ret, qdot) := vel c qInRad (Twist.rotate f.M kdlxdot)
    return if ret < 0 then none else some (qdot.map (· * rad2deg))
  | .base =>
    let (ret, qdot) := vel c qInRad kdlxdot
    return if ret < 0 then none else some (qdot.map (· * rad2deg))

/-- The calls. The reads of the number of joints at the beginning of a call are taken as one (the code makes one for
each array and each pass of a loop).
/repo/libraries/YarpPlugins/KdlSolver/ICartesianSolverImpl.cpp:33-47 (`appendLink`), 51-63 (`restoreOriginalChain`),
80-99 (`fwdKin`), 116-165 (`invKin`), 169-221 (`diffInvKin`), 225-263 and 267-338 (`invDyn`; the forward kinematics of
line 299 are computed without the mutex). -/
noncomputable def body (i : Solvers) : Req → Body
  | .append x => .locked .segments (·.appendLink x) fun _ => .ret (some (some []))
  | .restore => .locked .all (·.restore) fun _ => .ret (some (some []))
  | .fwdKin q => .joints fun n => .locked .nothing id fun s => .ret (fwdKinWith n s.chain q)
  | .invKin xd qGuess frame =>
    .joints fun n => .locked .nothing id fun s => .store (invKinWith i.pos n s.chain xd qGuess frame)
  | .diffInvKin q xdot frame =>
    .joints fun n => .locked .nothing id fun s => .store (diffInvKinWith i.vel n s.chain q xdot frame)
  | .invDynStatic q =>
    .joints fun n =>
      match KdlSolver.toRadians n q with
      | none => .ret none
      | some r =>
        .segments fun ls => .locked .nothing id fun s =>
          .store (some (rne s.links s.gravity r (List.replicate n 0) (List.replicate n 0)
            (List.replicate ls.length 0)))
  | .invDyn q qdot qdotdot ftip frame =>
    .joints fun n =>
      match KdlSolver.toRadians n q, KdlSolver.toRadians n qdot, KdlSolver.toRadians n qdotdot with
      | some r, some rd, some rdd =>
        .segments fun ls =>
          match frame with
          | .other => .ret (some none)
          | .base =>
            .segments fun ls' =>
              match (Chain.fk (ls'.map (·.seg)) r), ls.length with
              | some f, m + 1 => .locked .nothing id fun s =>
                .store (some (rne s.links s.gravity r rd rdd
                  (List.replicate m 0 ++ [Wrench.rotate f.M.transpose (vectorToWrench ftip)])))
              | _, _ => .ret none
          | .tcp =>
            match ls.length with
            | m + 1 => .locked .nothing id fun s =>
              .store (some (rne s.links s.gravity r rd rdd (List.replicate m 0 ++ [vectorToWrench ftip])))
            | 0 => .ret none
      | _, _, _ => .ret none

/-- Where a thread is: in no call, about to do the next thing of a call, or in the middle of a read without the mutex.
/repo/libraries/YarpPlugins/KdlSolver/ICartesianSolverImpl.cpp:33-338. -/
inductive Thread
  | idle
  | running (b : Body)
  | looking (b : Body)

/-- A change of the chain while a thread reads the same thing without the mutex: the number of joints is written by
`restoreOriginalChain`, the segments (and their number) by both.
/repo/libraries/YarpPlugins/KdlSolver/ICartesianSolverImpl.cpp:39 and 55. -/
def Thread.Races (w : Writes) : Thread → Prop
  | .looking (.joints _) => w = .all
  | .looking (.segments _) => w ≠ .nothing
  | _ => False

/-- The solver and the threads that call it; `broken` after a data race, when the program has no meaning any more.
/repo/libraries/YarpPlugins/KdlSolver/KdlSolver.hpp:81-92. -/
structure State where
  solver : DynSolver
  threads : ℕ → Thread
  broken : Prop

/-- What the callers see. The methods of /repo/libraries/YarpPlugins/KdlSolver/KdlSolver.hpp:36-74. -/
inductive Event
  | call (t : ℕ) (r : Req)
  | ret (t : ℕ) (a : Answer)

/-- One step of a thread, with what its caller sees. Nothing is said after a data race.
/repo/libraries/YarpPlugins/KdlSolver/ICartesianSolverImpl.cpp:33-338. -/
inductive Step (i : Solvers) : State → List Event → State → Prop
  | call {s t} (r : Req) : ¬s.broken → s.threads t = .idle →
      Step i s [.call t r] { s with threads := Function.update s.threads t (.running (body i r)) }
  | lookJoints {s t k} : ¬s.broken → s.threads t = .running (.joints k) →
      Step i s [] { s with threads := Function.update s.threads t (.looking (.joints k)) }
  | lookSegments {s t k} : ¬s.broken → s.threads t = .running (.segments k) →
      Step i s [] { s with threads := Function.update s.threads t (.looking (.segments k)) }
  | readJoints {s t k} : ¬s.broken → s.threads t = .looking (.joints k) →
      Step i s [] { s with threads := Function.update s.threads t (.running (k s.solver.chain.nJoints)) }
  | readSegments {s t k} : ¬s.broken → s.threads t = .looking (.segments k) →
      Step i s [] { s with threads := Function.update s.threads t (.running (k s.solver.links)) }
  | lock {s t w update k} : ¬s.broken → s.threads t = .running (.locked w update k) →
      Step i s [] ⟨update s.solver, Function.update s.threads t (.running (k s.solver)),
        ∃ u, u ≠ t ∧ (s.threads u).Races w⟩
  | ret {s t a} : ¬s.broken → s.threads t = .running (.ret a) →
      Step i s [.ret t a] { s with threads := Function.update s.threads t .idle }

/-- Any number of steps of any threads, with what the callers see.
/repo/libraries/YarpPlugins/KdlSolver/ICartesianSolverImpl.cpp:33-338. -/
inductive Steps (i : Solvers) : State → List Event → State → Prop
  | refl (s) : Steps i s [] s
  | tail {s es s' e s''} : Steps i s es s' → Step i s' e s'' → Steps i s (es ++ e) s''

/-- The solver just opened, /repo/libraries/YarpPlugins/KdlSolver/DeviceDriverImpl.cpp:147-450: no call made yet. -/
def State.start (s : DynSolver) : State := ⟨s, fun _ => .idle, False⟩

end KD.Threads
