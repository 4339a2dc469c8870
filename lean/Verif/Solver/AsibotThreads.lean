import Verif.Solver.Asibot

/-!
# The ASIBOT solver, called from several threads

The tool of the solver is protected by a mutex. Each access takes the mutex, copies the tool from or to the object, and
gives the mutex back (/repo/libraries/YarpPlugins/AsibotSolver/AsibotSolver.cpp:16-28): one step. A call may access the
tool several times, and the accesses of calls in different threads interleave freely. All other members are not changed
while the solver is open.
-/

namespace KD

namespace Asibot

open KinRepr

/-- `AsibotTcpFrame`, /repo/libraries/YarpPlugins/AsibotSolver/AsibotSolver.hpp:79-83. -/
structure Tool where
  hasFrame : Bool
  frame : Frame

/-- The solver with a tool. The other members of
/repo/libraries/YarpPlugins/AsibotSolver/AsibotSolver.hpp:90-96 stay as they are. -/
def Solver.withTool (s : Solver) (t : Tool) : Solver := { s with hasFrame := t.hasFrame, frameTcp := t.frame }

/-- The tool of a solver, /repo/libraries/YarpPlugins/AsibotSolver/AsibotSolver.hpp:96. -/
def Solver.tool (s : Solver) : Tool := ⟨s.hasFrame, s.frameTcp⟩

/-- What a call answers: nothing if its behaviour is undefined, `some none` for `false`, and otherwise the vector it
fills in (empty if it fills in none).
/repo/libraries/YarpPlugins/AsibotSolver/ICartesianSolverImpl.cpp:202-483. -/
abbrev Answer := Option (Option (List ℝ))

/-- What is left of a call: its accesses to the tool, with the computations between them.
/repo/libraries/YarpPlugins/AsibotSolver/AsibotSolver.cpp:16-28. -/
inductive Code
  | done (a : Answer)
  | read (k : Tool → Code)
  | write (t : Tool) (k : Code)

/-- The methods that a caller has.
/repo/libraries/YarpPlugins/AsibotSolver/AsibotSolver.hpp:43-69. -/
inductive Req
  | append (x : List ℝ)
  | restore
  | origin (xOldObj xNewOld : List ℝ)
  | fwd (q : List ℝ)
  | diff (xLhs xRhs : List ℝ)
  | inv (xd qGuess : List ℝ) (frame : SolverFrame)
  | diffInv (q : List ℝ) (xdot : Twist) (frame : SolverFrame)

/-- What the method does with the tool:
/repo/libraries/YarpPlugins/AsibotSolver/ICartesianSolverImpl.cpp:206-209 (`appendLink`), 218-221
(`restoreOriginalChain`), 275 (`fwdKin`), 318-334 (`invKin`, which in the frame of the tool calls `fwdKin` first) and
446-452 (`diffInvKin`, which calls `fwdKin` if there is a tool). Computations that do not depend on the tool are put
next to the access, where they make no difference. -/
noncomputable def Req.code (svd : Mat3 → Vec3) (pinv : Pinv) (s : Solver) : Req → Code
  | .append x =>
    match vectorToMatrix x with
    | none => .done none
    | some f => .read fun t => .write ⟨true, t.frame * f⟩ (.done (some (some [])))
  | .restore => .read fun _ => .write ⟨false, 1⟩ (.done (some (some [])))
  | .origin a b => .done ((changeOrigin svd a b).map some)
  | .fwd q => .read fun t => .done ((fwdKin svd (s.withTool t) q).map some)
  | .diff a b => .done ((poseDiff svd a b).map some)
  | .inv xd g .base => .read fun t => .done (invKin svd (s.withTool t) xd g .base)
  | .inv xd g .tcp => .read fun t =>
    match (fwdKin svd (s.withTool t) g).bind fun x => changeOrigin svd xd x with
    | none => .done none
    | some y => .read fun t' => .done (invKin svd (s.withTool t') y g .base)
  | .inv xd g .other => .done (invKin svd s xd g .other)
  | .diffInv q xdot f =>
    match Joints.read q with
    | none => .done none
    | some qd =>
      match f with
      | .other => .done (some none)
      | _ => .read fun t =>
        let ja := if f = .base then baseJacobian s qd.inRadians else tcpJacobian s qd.inRadians
        let move := fun ja =>
          let v := pinv ja xdot
          (some (some [radToDeg v.q1, radToDeg v.q2, radToDeg v.q3, radToDeg v.q4, radToDeg v.q5]) : Answer)
        if t.hasFrame then
          .read fun t' =>
            match (fwdKin svd (s.withTool t') q).bind vectorToMatrix with
            | none => .done none
            | some h => .done (move (ja.map (shiftColumn h.M t.frame.p)))
        else .done (move ja)

/-- The solver while calls are in progress: the tool and what is left of the call of each thread.
/repo/libraries/YarpPlugins/AsibotSolver/AsibotSolver.hpp:96-98. -/
structure Busy where
  tool : Tool
  threads : ℕ → Option Code

/-- What can be seen from outside: a call begins, or returns.
/repo/libraries/YarpPlugins/AsibotSolver/ICartesianSolverImpl.cpp:202-483. -/
inductive Seen
  | call (i : ℕ) (r : Req)
  | ret (i : ℕ) (a : Answer)

/-- One step: a call begins, accesses the tool or returns.
/repo/libraries/YarpPlugins/AsibotSolver/AsibotSolver.cpp:16-28. Thread `i` only makes calls that `A` allows. -/
inductive Busy.Step (svd : Mat3 → Vec3) (pinv : Pinv) (s : Solver) (A : ℕ → Req → Prop) :
    Busy → Option Seen → Busy → Prop
  | call {t th i r} : th i = none → A i r →
      Busy.Step svd pinv s A ⟨t, th⟩ (some (.call i r)) ⟨t, Function.update th i (some (r.code svd pinv s))⟩
  | read {t th i k} : th i = some (.read k) →
      Busy.Step svd pinv s A ⟨t, th⟩ none ⟨t, Function.update th i (some (k t))⟩
  | write {t th i t' k} : th i = some (.write t' k) →
      Busy.Step svd pinv s A ⟨t, th⟩ none ⟨t', Function.update th i (some k)⟩
  | ret {t th i a} : th i = some (.done a) →
      Busy.Step svd pinv s A ⟨t, th⟩ (some (.ret i a)) ⟨t, Function.update th i none⟩

/-- Any number of steps, with what is seen.
/repo/libraries/YarpPlugins/AsibotSolver/AsibotSolver.cpp:16-28. -/
inductive Busy.Steps (svd : Mat3 → Vec3) (pinv : Pinv) (s : Solver) (A : ℕ → Req → Prop) :
    Busy → List Seen → Busy → Prop
  | refl (x) : Busy.Steps svd pinv s A x [] x
  | step {x l y es z} : Busy.Step svd pinv s A x l y → Busy.Steps svd pinv s A y es z →
      Busy.Steps svd pinv s A x (l.toList ++ es) z

end Asibot

end KD
