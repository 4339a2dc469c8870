import Verif.Kdl.Dynamics

/-!
# Kinematic trees of KDL

External library behaviour (`kdl/tree.cpp`, `kdl/treefksolverpos_recursive.cpp`,
`kdl/treeidsolver_recursive_newton_euler.cpp`), as relied on by
/repo/libraries/YarpPlugins/KdlTreeSolver/DeviceDriverImpl.cpp:312-344 and
/repo/libraries/YarpPlugins/KdlTreeSolver/ICartesianSolverImpl.cpp.
-/

namespace KD

/-- `KDL::TreeElement` of a segment other than the root: name, parent, segment with its inertia, and place of its
joint in the arrays of joints (zero for a fixed joint). -/
structure TreeNode where
  name : String
  parent : String
  link : Link
  qNr : ℕ

/-- `KDL::Tree` with its root segment `"root"`, which is fixed and has no mass. The map of segments is a list
here, in the order in which they were added, the last one first. -/
structure Tree where
  nodes : List TreeNode
  nJoints : ℕ

namespace Tree

/-- `KDL::Tree()`. -/
def empty : Tree := ⟨[], 0⟩

/-- Is there a segment of this name? External: `getSegment` of `KDL::Tree`. -/
def Has (t : Tree) (name : String) : Prop := name = "root" ∨ ∃ n ∈ t.nodes, n.name = name

instance (t : Tree) (name : String) : Decidable (t.Has name) := by
  unfold Has
  infer_instance

/-- `KDL::Tree::addSegment`; `none` is a returned `false`: the hook is missing or the name is taken. -/
noncomputable def addSegment (t : Tree) (name : String) (l : Link) (hook : String) : Option Tree :=
  if ¬ t.Has hook then none
  else if t.Has name then none
  else if l.seg.joint.type ≠ .none then some ⟨⟨name, hook, l, t.nJoints⟩ :: t.nodes, t.nJoints + 1⟩
  else some ⟨⟨name, hook, l, 0⟩ :: t.nodes, t.nJoints⟩

/-- `KDL::Tree::addChain`: each segment is added to the previous one, the first one to the hook. The tree is given
back in case of failure as well: segments added so far stay in it. -/
noncomputable def addChain (t : Tree) : List (String × Link) → String → Bool × Tree
  | [], _ => (true, t)
  | (name, l) :: c, hook =>
    match t.addSegment name l hook with
    | none => (false, t)
    | some t' => t'.addChain c name

/-- The value of the joint of a segment: fixed ones have none. External: `q_nr` and `getType` in the solvers of
`KDL::Tree`. -/
def jointValue (n : TreeNode) (q : List ℝ) : ℝ := if n.link.seg.joint.type ≠ .none then q.getD n.qNr 0 else 0

/-- `recursiveFk` of `KDL::TreeFkSolverPos_recursive`: from a segment to the root. Parents were added before. The
list holds the segments that may still be met; `none` for a name that is not there. -/
noncomputable def fkLoop (q : List ℝ) : List TreeNode → String → Option Frame
  | [], name => if name = "root" then some 1 else none
  | n :: ns, name =>
    if n.name = name then (fkLoop q ns n.parent).map (· * n.link.seg.pose (jointValue n q))
    else fkLoop q ns name

/-- `KDL::TreeFkSolverPos_recursive::JntToCart`; `none` is an error code. A tree without joints reads the first
element of an empty array, which is counted as an error here. -/
noncomputable def fk (t : Tree) (q : List ℝ) (name : String) : Option Frame :=
  if q.length ≠ t.nJoints ∨ t.nJoints = 0 then none else fkLoop q t.nodes name

/-- The way out to the segments of `rne_step` of `KDL::TreeIdSolver_RNE`: velocity and acceleration of a segment, in its
own frame. -/
noncomputable def sweep (q qd qdd : List ℝ) (gravity : Vec3) : List TreeNode → String → Twist × Twist
  | [], _ => (0, ⟨-gravity, 0⟩)
  | n :: ns, name =>
    if n.name = name then
      let (v, a) := sweep q qd qdd gravity ns n.parent
      Link.sweep n.link.seg (jointValue n q) (jointValue n qd) (jointValue n qdd) v a
    else sweep q qd qdd gravity ns name

/-- The way back of `rne_step`: `f` holds the reactions of the segments done so far on their parents. Each
segment is done after all those attached to it, its children in any order (their reactions are added up).
The results are the torques of the joints, with their places. External: `KDL::TreeIdSolver_RNE`. -/
noncomputable def collect (q qd qdd : List ℝ) (gravity : Vec3) (ext : String → Option Wrench) :
    List TreeNode → (String → Wrench) → List (ℕ × ℝ)
  | [], _ => []
  | n :: ns, f =>
    let (v, a) := sweep q qd qdd gravity (n :: ns) n.name
    let w := Link.force n.link.inertia v a ((ext n.name).getD 0) + f n.name
    let x := jointValue n q
    let X := n.link.seg.pose x
    let rest := collect q qd qdd gravity ext ns (fun k => if k = n.parent then f k + X.mulWrench w else f k)
    if n.link.seg.joint.type ≠ .none then
      (n.qNr, (Twist.rotate X.M.transpose (n.link.seg.twist x 1)).power w) :: rest
    else rest

/-- `KDL::TreeIdSolver_RNE::CartToJnt`; `none` for arrays of other sizes. -/
noncomputable def rne (t : Tree) (gravity : Vec3) (q qd qdd : List ℝ) (ext : String → Option Wrench) :
    Option (List ℝ) :=
  if q.length = t.nJoints ∧ qd.length = t.nJoints ∧ qdd.length = t.nJoints then
    let torques := collect q qd qdd gravity ext t.nodes fun _ => 0
    some ((List.range t.nJoints).map fun j => ((torques.find? (·.1 = j)).map (·.2)).getD 0)
  else none

end Tree

end KD
