import Verif.Kdl.OneChain
import Verif.Props.KdlTreeConfig
import Verif.Props.KdlConfig

/-!
# C91: a robot that is one chain, on both devices
-/

namespace KD

open KdlVectorConverter KdlConfig

namespace KdlTreeConfig

/-! ### Specification -/

/-- The configuration of the tree has one limb, hooked to the root, whose end is a TCP, and the group of this limb is
the configuration of a chain; the number of links is given, and so is the same gravity (or none) in both. -/
structure OneLimb (c : TreeConfig) (name : String) (cc : Config) : Prop where
  chains : c.chains = [name]
  group : c.group name = some cc
  hook : cc.top "hook" = none ∨ cc.top "hook" = some (.str "root")
  endpoint : cc.top "endpoint" = some (.int 1)
  merge : cc.top "mergeWith" = none
  number : cc.top "numLinks" ≠ none
  gravity : cc.top "gravity" = c.top "gravity"

/-- The chain device without its inertias. -/
def _root_.KD.DynSolver.kinematics (s : DynSolver) : KdlSolver := ⟨s.chain, s.original.map (·.seg)⟩

/-! ### Helpers -/

theorem links_same (name : String) (c : Config) : ∀ n i,
    KdlConfig.links c i n = (links name c i n).map fun s => s.map (·.2) := by
  intro n
  induction n with
  | zero => intro i; rfl
  | succ n ih =>
    intro i
    have h1 : KdlConfig.link c i = (link name c i).map fun s => s.map (·.2) := by
      unfold link KdlConfig.link
      cases c.group ("link_" ++ toString i) with
      | some g => rfl
      | none =>
        cases c.group ("xyzLink_" ++ toString i) with
        | some g => simp [List.map_map, Function.comp_def]
        | none => rfl
    simp only [links, KdlConfig.links, h1, ih (i + 1), Option.bind_eq_bind]
    cases link name c i with
    | none => rfl
    | some l =>
      cases links name c (i + 1) n with
      | none => rfl
      | some ls => simp

/-- Both devices hold the same links. -/
theorem both_open {c : TreeConfig} {name : String} {cc : Config} (h : OneLimb c name cc) {o : Opened}
    {st : List Link → Bool} {w : Bool} {p : KdlConfig.Opened} (ho : openSolver c = some (some o))
    (hp : KdlConfig.openSolver st w cc = some (some p)) :
    o.solver.gravity = p.solver.gravity ∧ o.solver.tcps = ⟨[name], fun _ => none⟩ ∧
      ∃ segs l, Tree.empty.addChain (segs ++ [(name, l)]) "root" = (true, o.solver.tree) ∧
        (segs ++ [(name, l)]).map (·.2) = p.solver.links ∧ ¬ l.Moving := by
  obtain ⟨r, h1, h2⟩ := openSolver_inv ho
  obtain ⟨-, ⟨g, hg, hg'⟩, h3, -⟩ := open_inv h1 h2
  -- the tree
  rw [h.chains, addChains] at h3
  have hadd : addChain c Members.new name = (true, ⟨o.solver.tree, o.solver.tcps⟩) := by
    cases ha : addChain c Members.new name with
    | mk ok m =>
      rw [ha] at h3
      cases ok with
      | false => simp at h3
      | true => simpa [addChains] using h3
  unfold addChain at hadd
  rw [h.group, Option.getD_some] at hadd
  have hhook : (cc.top.check "hook" (.str "root")).asString = "root" := by
    rcases h.hook with e | e <;> simp [Group.check, e, Val.asString]
  simp only [hhook] at hadd
  obtain ⟨n, hn⟩ := Option.ne_none_iff_exists'.1 h.number
  -- the chain
  unfold KdlConfig.openSolver KdlConfig.openFrom at hp
  have hcg : (cc.top.check "gravity" (.list [0, 0, -9.81])).asList = some g := by
    rw [← hg]
    simp only [Group.check, h.gravity]
  rw [hcg] at hp
  simp only [Option.bind_eq_bind, Option.bind_some, List.nil_append] at hp
  simp only [chain, Group.check, hn, Option.getD_some, Option.bind_eq_bind] at hadd
  simp only [KdlConfig.chain, Group.check, hn, Option.getD_some, Option.bind_eq_bind, links_same name cc] at hp
  cases hl : links name cc 0 n.asInt.toNat with
  | none => simp [hl] at hadd
  | some ls =>
    simp only [hl, Option.bind_some, Option.map_some, Option.pure_def] at hadd hp
    cases hpos : positionSolver st w cc (fixedLink (matrix cc.top "H0") :: ls.map (·.2) ++
        [fixedLink (matrix cc.top "HN")]) with
    | none =>
      rw [hpos] at hp
      by_cases hv : ((cc.top "ikVel").getD (.str "pinv")).asString = "pinv" ∨
          ((cc.top "ikVel").getD (.str "pinv")).asString = "wdls"
      · cases Option.some.inj ((if_pos hv).symm.trans hp)
      · cases Option.some.inj ((if_neg hv).symm.trans hp)
    | some y =>
      rw [hpos] at hp
      obtain ⟨ikPos, limits⟩ := y
      by_cases hv : ((cc.top "ikVel").getD (.str "pinv")).asString = "pinv" ∨
          ((cc.top "ikVel").getD (.str "pinv")).asString = "wdls"
      · have hp' := Option.some.inj (Option.some.inj ((if_pos hv).symm.trans hp))
        cases hadd' : Members.new.tree.addChain ((name ++ "_H0", fixedLink (matrix cc.top "H0")) :: ls ++
            [(name, fixedLink (matrix cc.top "HN"))]) "root" with
        | mk ok tree =>
          rw [hadd'] at hadd
          cases ok with
          | false => simp at hadd
          | true =>
            have htcp : Members.new.tcps.addChain (options name cc) = some ⟨[name], fun _ => none⟩ := by
              simp [Tcps.addChain, options, Group.check, h.endpoint, h.merge, asBool, Members.new, Tcps.empty]
            simp only [htcp, Prod.mk.injEq, true_and] at hadd
            obtain ⟨e1, e2⟩ := Members.mk.inj hadd
            refine ⟨?_, e2.symm, (name ++ "_H0", fixedLink (matrix cc.top "H0")) :: ls, fixedLink (matrix cc.top "HN"),
              ?_, ?_, fixed_still _⟩
            · rw [hg', ← hp']
            · rw [← e1]
              exact hadd'
            · rw [← hp']
              simp
      · cases Option.some.inj ((if_neg hv).symm.trans hp)

/-- What both devices have in common. -/
structure Same (s : TreeDynSolver) (name : String) (d : DynSolver) : Prop where
  gravity : s.gravity = d.gravity
  tcps : s.tcps = ⟨[name], fun _ => none⟩
  joints : s.tree.nJoints = d.chain.nJoints
  fk : ∀ q : List ℝ, q.length = s.tree.nJoints → s.tree.nJoints ≠ 0 → ∃ F, s.tree.fk q name = some F ∧
    d.chain.fk q = some F
  rne : ∀ (q qd qdd : List ℝ) (ext : String → Option Wrench) (w : Wrench), q.length = s.tree.nJoints →
    qd.length = s.tree.nJoints → qdd.length = s.tree.nJoints → (∀ x, x ≠ name → (ext x).getD 0 = 0) →
    (ext name).getD 0 = w → s.tree.rne s.gravity q qd qdd ext =
      KD.rne d.links d.gravity q qd qdd (List.replicate (d.links.length - 1) 0 ++ [w])
  links : d.links ≠ []

theorem both_same {c : TreeConfig} {name : String} {cc : Config} (h : OneLimb c name cc) {o : Opened}
    {st : List Link → Bool} {w : Bool} {p : KdlConfig.Opened} (ho : openSolver c = some (some o))
    (hp : KdlConfig.openSolver st w cc = some (some p)) : Same o.solver name p.solver := by
  obtain ⟨h1, h2, segs, l, h3, h4, -⟩ := both_open h ho hp
  obtain ⟨-, hn, -, hfk, -⟩ := Tree.addChain_spec _ _ _ _ h3
  have hn' : o.solver.tree.nJoints = Tree.moving p.solver.links := by
    rw [hn, h4]
    exact Nat.zero_add _
  refine ⟨h1, h2, ?_, ?_, ?_, ?_⟩
  · rw [hn', DynSolver.chain, Tree.moving_chain]
  · intro q hq h0
    have hlast : (segs ++ [(name, l)])[segs.length]? = some (name, l) := by simp
    have := hfk q _ _ hlast
    rw [List.take_of_length_le (by simp), h4] at this
    refine ⟨Tree.poseOf q 0 p.solver.links, ?_, ?_⟩
    · rw [Tree.fk, if_neg (by omega)]
      refine this.trans ?_
      show Option.map _ (Tree.fkLoop q [] "root") = _
      rw [Tree.fkLoop, if_pos rfl, Option.map_some, one_mul]
      rfl
    · have hc := Tree.fkLoop_chain q p.solver.links 0 1 (by omega)
      rw [List.drop_zero, one_mul] at hc
      exact hc
  · intro q qd qdd ext w hq hqd hqdd hx hw
    have hnd := (Tree.addChain_iff (segs ++ [(name, l)]) Tree.empty "root" (by simp)).1 (by rw [h3])
    have hnd' := hnd.2.1
    rw [List.map_append, List.map_cons, List.map_nil] at hnd'
    have hne : ∀ s ∈ segs, s.1 ≠ name := by
      intro s hs e
      have := (List.nodup_append.1 hnd').2.2 s.1 (List.mem_map.2 ⟨s, hs, rfl⟩) name (by simp)
      exact this e
    rw [Tree.rne_chain h3 _ q qd qdd ext hq hqd hqdd, h4, h1]
    congr 1
    rw [List.map_append, List.map_cons, List.map_nil, hw]
    congr 1
    have hlen : segs.length = p.solver.links.length - 1 := by rw [← h4]; simp
    rw [← hlen]
    refine List.eq_replicate_iff.2 ⟨by simp, fun b hb => ?_⟩
    obtain ⟨s, hs, rfl⟩ := List.mem_map.1 hb
    exact hx _ (hne s hs)
  · rw [← h4]
    simp

theorem radians_length {n : ℕ} {q r : List ℝ} (h : KdlSolver.toRadians n q = some r) : r.length = n := by
  unfold KdlSolver.toRadians at h
  split_ifs at h with hq
  rw [← Option.some.inj h]
  simp [hq]

/-! ### Property -/

/-- **C91.** A robot that is one chain has the same number of joints on both devices, and the same forward
kinematics. Partial, like the next ones: the number of links has to be given, see `C91_uncounted`, and there must be a
joint, as the forward solver of trees fails without joints. -/
theorem C91_forward_kinematics_partial {c : TreeConfig} {name : String} {cc : Config} (h : OneLimb c name cc) {o : Opened}
    {st : List Link → Bool} {w : Bool} {p : KdlConfig.Opened} (ho : openSolver c = some (some o))
    (hp : KdlConfig.openSolver st w cc = some (some p)) (h0 : p.solver.chain.nJoints ≠ 0) (q : List ℝ) :
    o.solver.kinematics.nJoints = p.solver.kinematics.numJoints ∧
      o.solver.kinematics.fwdKin q = (p.solver.kinematics.fwdKin q).map some := by
  have hs := both_same h ho hp
  refine ⟨hs.joints, ?_⟩
  unfold KdlTreeSolver.fwdKin KdlSolver.fwdKin
  show (KdlSolver.toRadians o.solver.tree.nJoints q).bind _ =
    Option.map some ((KdlSolver.toRadians p.solver.chain.nJoints q).bind _)
  rw [hs.joints]
  cases hr : KdlSolver.toRadians p.solver.chain.nJoints q with
  | none => rfl
  | some r =>
    obtain ⟨F, h1, h2⟩ := hs.fk r (by rw [hs.joints]; exact radians_length hr) (by rw [hs.joints]; exact h0)
    have h1' : o.solver.kinematics.fk r name = some F := h1
    have h2' : p.solver.kinematics.chain.fk r = some F := h2
    have ht : o.solver.kinematics.tcps.endpoints = [name] := by
      show o.solver.tcps.endpoints = _
      rw [hs.tcps]
    simp only [Option.bind_some, ht, KdlTreeSolver.poses, h1', h2', Option.bind_eq_bind, Option.pure_def, Option.map_some,
      List.append_nil]

/-- **C91.** Both devices ask for the same torques: at rest, and in motion with a force at the end, in every frame of
reference. -/
theorem C91_inverse_dynamics_partial {c : TreeConfig} {name : String} {cc : Config} (h : OneLimb c name cc) {o : Opened}
    {st : List Link → Bool} {w : Bool} {p : KdlConfig.Opened} (ho : openSolver c = some (some o))
    (hp : KdlConfig.openSolver st w cc = some (some p)) (h0 : p.solver.chain.nJoints ≠ 0)
    (q qdot qdotdot ftip : List ℝ) (hf : ftip.length = 6) (frame : SolverFrame) :
    o.solver.invDynStatic q = p.solver.invDynStatic q ∧
      o.solver.invDyn q qdot qdotdot ftip frame = p.solver.invDyn q qdot qdotdot ftip frame := by
  have hs := both_same h ho hp
  have hzero : List.replicate (p.solver.links.length - 1) (0 : Wrench) ++ [0] =
      List.replicate p.solver.links.length 0 := by
    have hpos : 0 < p.solver.links.length := List.length_pos_iff.2 hs.links
    rw [← List.replicate_succ', Nat.sub_add_cancel hpos]
  constructor
  · unfold TreeDynSolver.invDynStatic DynSolver.invDynStatic
    simp only [hs.joints, hs.tcps, Option.bind_eq_bind]
    cases hr : KdlSolver.toRadians p.solver.chain.nJoints q with
    | none => rfl
    | some r =>
      simp only [Option.bind_some]
      rw [hs.rne r _ _ _ 0 (by rw [hs.joints]; exact radians_length hr) (by rw [hs.joints]; simp)
        (by rw [hs.joints]; simp) (fun x hx => by simp [hx]) (by simp), hzero]
  · unfold TreeDynSolver.invDyn DynSolver.invDyn
    have hfill : KdlTreeSolver.fill o.solver.tcps vectorToWrench 0 ftip o.solver.tcps.endpoints 0 (fun _ => none) =
        some (fun k => if k = name then some (vectorToWrench ftip) else none) := by
      rw [hs.tcps]
      simp [KdlTreeSolver.fill, KdlTreeSolver.block, hf, List.take_of_length_le]
    simp only [hfill, hs.joints, Option.bind_eq_bind, Option.bind_some]
    cases hr : KdlSolver.toRadians p.solver.chain.nJoints q with
    | none => rfl
    | some r =>
      cases hrd : KdlSolver.toRadians p.solver.chain.nJoints qdot with
      | none => rfl
      | some rd =>
        cases hrdd : KdlSolver.toRadians p.solver.chain.nJoints qdotdot with
        | none => rfl
        | some rdd =>
          have l1 := hs.joints ▸ radians_length hr
          have l2 := hs.joints ▸ radians_length hrd
          have l3 := hs.joints ▸ radians_length hrdd
          have hne : p.solver.links.isEmpty = false := by
            rw [List.isEmpty_eq_false_iff]
            exact hs.links
          simp only [Option.bind_some]
          cases frame with
          | other => rfl
          | tcp =>
            simp only [Option.bind_some, DynSolver.wrenches, hne, Bool.false_eq_true, if_false]
            rw [hs.rne r rd rdd _ (vectorToWrench ftip) l1 l2 l3 (fun x hx => by simp [hx]) (by simp)]
          | base =>
            obtain ⟨F, h1, h2⟩ := hs.fk r l1 (by rw [hs.joints]; exact h0)
            have h1' : o.solver.kinematics.fk r name = some F := h1
            have he : o.solver.tcps.endpoints = [name] := by rw [hs.tcps]
            simp only [he, KdlTreeSolver.toBase, h1', h2, Option.bind_eq_bind, Option.bind_some, DynSolver.wrenches, hne,
              Bool.false_eq_true, if_false]
            rw [hs.rne r rd rdd _ (Wrench.rotate F.M.transpose (vectorToWrench ftip)) l1 l2 l3
              (fun x hx => by simp [hx]) (by simp)]

/-- **C91.** Both devices hand the same problems of inverse kinematics over to their solvers: if these give the same answers
to the same frames (or twists) of the only TCP, so do the devices, in every frame of reference. -/
theorem C91_inverse_kinematics_partial {c : TreeConfig} {name : String} {cc : Config} (h : OneLimb c name cc) {o : Opened}
    {st : List Link → Bool} {w : Bool} {p : KdlConfig.Opened} (ho : openSolver c = some (some o))
    (hp : KdlConfig.openSolver st w cc = some (some p)) (h0 : p.solver.chain.nJoints ≠ 0) (q x : List ℝ)
    (hx : x.length = 6) (frame : SolverFrame) :
    (∀ (ik : PosSolver) (tik : TreePosSolver),
      (∀ (q : List ℝ) (m : String → Option Frame) F, m name = some F → tik q m = ik p.solver.chain q F) →
      o.solver.kinematics.invKin tik x q frame = p.solver.kinematics.invKin ik x q frame) ∧
    (∀ (ik : VelSolver) (tik : TreeVelSolver),
      (∀ (q : List ℝ) (m : String → Option Twist) F, m name = some F → tik q m = ik p.solver.chain q F) →
      o.solver.kinematics.diffInvKin tik q x frame = p.solver.kinematics.diffInvKin ik q x frame) := by
  have hs := both_same h ho hp
  have ht : o.solver.kinematics.tcps = ⟨[name], fun _ => none⟩ := hs.tcps
  have hj : o.solver.kinematics.nJoints = p.solver.kinematics.numJoints := hs.joints
  have hfill : ∀ {α : Type} (f : List ℝ → α) (d : α),
      KdlTreeSolver.fill o.solver.kinematics.tcps f d x o.solver.kinematics.tcps.endpoints 0 (fun _ => none) =
        some (fun k => if k = name then some (f x) else none) := by
    intro α f d
    rw [ht]
    simp [KdlTreeSolver.fill, KdlTreeSolver.block, hx, List.take_of_length_le]
  constructor
  · intro ik tik hik
    unfold KdlTreeSolver.invKin KdlSolver.invKin
    simp only [hfill, hj, Option.bind_eq_bind, Option.bind_some]
    cases hr : KdlSolver.toRadians p.solver.kinematics.numJoints q with
    | none => rfl
    | some r =>
      simp only [Option.bind_some]
      cases frame with
      | other => rfl
      | base =>
        simp only [Option.bind_some]
        rw [hik r _ (vectorToFrame x) (by simp)]
        rfl
      | tcp =>
        obtain ⟨F, h1, h2⟩ := hs.fk r (by rw [hs.joints]; exact radians_length hr) (by rw [hs.joints]; exact h0)
        have h1' : o.solver.kinematics.fk r name = some F := h1
        have h2' : p.solver.kinematics.chain.fk r = some F := h2
        simp only [ht, KdlTreeSolver.toBase, h1', h2', Option.bind_eq_bind, Option.bind_some]
        rw [hik r _ (F * vectorToFrame x) (by simp)]
        rfl
  · intro ik tik hik
    unfold KdlTreeSolver.diffInvKin KdlSolver.diffInvKin
    simp only [hfill, hj, Option.bind_eq_bind, Option.bind_some]
    cases hr : KdlSolver.toRadians p.solver.kinematics.numJoints q with
    | none => rfl
    | some r =>
      simp only [Option.bind_some]
      cases frame with
      | other => rfl
      | base =>
        simp only [Option.bind_some]
        rw [hik r _ (vectorToTwist x) (by simp)]
        rfl
      | tcp =>
        obtain ⟨F, h1, h2⟩ := hs.fk r (by rw [hs.joints]; exact radians_length hr) (by rw [hs.joints]; exact h0)
        have h1' : o.solver.kinematics.fk r name = some F := h1
        have h2' : p.solver.kinematics.chain.fk r = some F := h2
        simp only [ht, KdlTreeSolver.toBase, h1', h2', Option.bind_eq_bind, Option.bind_some]
        rw [hik r _ (Twist.rotate F.M (vectorToTwist x)) (by simp)]
        rfl

/-- **C91.** Changes of origin and differences of poses are the same on both devices. -/
theorem C91_poses_partial {c : TreeConfig} {name : String} {cc : Config} (h : OneLimb c name cc) {o : Opened}
    {st : List Link → Bool} {w : Bool} {p : KdlConfig.Opened} (ho : openSolver c = some (some o))
    (hp : KdlConfig.openSolver st w cc = some (some p)) (x y : List ℝ) (hx : x.length = 6) (hy : y.length = 6) :
    o.solver.kinematics.changeOrigin x y = some (KdlSolver.changeOrigin x y) ∧
      o.solver.kinematics.poseDiff x y = some (KdlSolver.poseDiff x y) := by
  have ht : o.solver.kinematics.tcps = ⟨[name], fun _ => none⟩ := (both_same h ho hp).tcps
  unfold KdlTreeSolver.changeOrigin KdlTreeSolver.poseDiff
  rw [ht]
  constructor <;> simp [KdlTreeSolver.blockwise, KdlTreeSolver.block, hx, hy, List.take_of_length_le]

/-! ### A robot, and what goes wrong -/

/-- An arm of one link that weighs two kilograms, on the ceiling. -/
noncomputable def arm : Config where
  top := KdlConfig.group [("numLinks", .int 1), ("endpoint", .int 1), ("ikPos", .str "lma"),
    ("gravity", .list [0, 0, 9.81])]
  group k := if k = "link_0" then some (KdlConfig.group [("A", .num 1), ("mass", .num 2), ("cog", .list [0, 0, 0]),
    ("inertia", .list [0, 0, 0])]) else none

/-- The same arm as a tree. -/
noncomputable def armTree : TreeConfig where
  top := KdlConfig.group [("mins", .list [-90]), ("maxs", .list [90]), ("maxvels", .list [30]),
    ("gravity", .list [0, 0, 9.81]), ("ik", .str "nrjl")]
  chains := ["arm"]
  group k := if k = "arm" then some arm else none

theorem arm_one : OneLimb armTree "arm" arm := by
  refine ⟨rfl, rfl, Or.inl rfl, rfl, rfl, ?_, rfl⟩
  rw [show arm.top "numLinks" = some (.int 1) from rfl]
  exact Option.some_ne_none _

theorem armTree_opens : ∃ o, openSolver armTree = some (some o) := by
  have hd : Describes armTree [⟨"arm", "root", 1, [.dh 0 0 1 0], 1, true, none⟩] := by
    refine ⟨rfl, fun b hb => ?_⟩
    rw [List.mem_singleton.1 hb]
    refine ⟨arm, rfl, ⟨rfl, Or.inr ⟨rfl, rfl⟩, ?_, Or.inr ⟨rfl, rfl⟩⟩, Or.inr ⟨rfl, rfl⟩, Or.inl ⟨rfl, rfl⟩, rfl⟩
    intro i d hd
    match i with
    | 0 =>
      rw [← Option.some.inj hd]
      exact .dh (g := KdlConfig.group [("A", .num 1), ("mass", .num 2), ("cog", .list [0, 0, 0]),
        ("inertia", .list [0, 0, 0])]) rfl (Or.inr ⟨rfl, rfl⟩) (Or.inr ⟨rfl, rfl⟩) (Or.inl rfl) (Or.inr ⟨rfl, rfl⟩)
    | i + 1 => simp at hd
  refine (C79_opens hd (by simp) (mins := [-90]) (maxs := [90]) (maxvels := [30]) rfl rfl rfl (gx := 0) (gy := 0)
    (gz := 9.81) rfl (ik := "nrjl") rfl).1.mpr ⟨⟨?_, ?_, ?_⟩, rfl, rfl, rfl, ?_, Or.inl rfl⟩
  · intro k b hk
    match k with
    | 0 => rw [← Option.some.inj hk]; simp
    | k + 1 => simp at hk
  · show ["root", "arm_H0", "arm_link_0", "arm"].Nodup
    decide
  · intro k b hk _ o ho
    match k with
    | 0 => rw [← Option.some.inj hk] at ho; cases ho
    | k + 1 => simp at hk
  · intro i a b ha hb
    match i with
    | 0 => simp at ha hb; linarith
    | i + 1 => simp at ha

theorem arm_opens (st : List Link → Bool) : ∃ p, KdlConfig.openSolver st true arm = some (some p) ∧
    p.solver.chain.nJoints ≠ 0 := by
  obtain ⟨ls, hls⟩ : ∃ ls, KdlConfig.chain arm = some ls := ⟨_, rfl⟩
  have hn : Chain.nJoints (ls.map (·.seg)) = 1 := by
    rw [← Option.some.inj hls]
    rfl
  refine ⟨⟨⟨ls, ls, ⟨0, 0, 9.81⟩⟩, "pinv", "lma", none⟩, ?_, ?_⟩
  · unfold KdlConfig.openSolver KdlConfig.openFrom
    rw [hls]
    rfl
  · show Chain.nJoints (ls.map (·.seg)) ≠ 0
    rw [hn]
    exact one_ne_zero

/-- Non-vacuity: the arm on both devices. -/
example (st : List Link → Bool) : ∃ o p, openSolver armTree = some (some o) ∧
    KdlConfig.openSolver st true arm = some (some p) ∧ ∀ q, o.solver.invDynStatic q = p.solver.invDynStatic q := by
  obtain ⟨o, ho⟩ := armTree_opens
  obtain ⟨p, hp, h0⟩ := arm_opens st
  exact ⟨o, p, ho, hp, fun q => (C91_inverse_dynamics_partial arm_one ho hp h0 q [] [] [0, 0, 0, 0, 0, 0] rfl .base).1⟩

/-- An arm whose number of links is left out. -/
noncomputable def uncounted : Config where
  top := KdlConfig.group [("endpoint", .int 1), ("ikPos", .str "lma")]
  group := arm.group

/-- The same one as a tree. -/
noncomputable def uncountedTree : TreeConfig where
  top := KdlConfig.group [("mins", .list []), ("maxs", .list []), ("maxvels", .list [])]
  chains := ["arm"]
  group k := if k = "arm" then some uncounted else none

/-- **C91** refuted without a number of links: the chain device takes one link then, and the tree device none. -/
theorem C91_uncounted (st : List Link → Bool) : ∃ o p, openSolver uncountedTree = some (some o) ∧
    KdlConfig.openSolver st true uncounted = some (some p) ∧ o.solver.kinematics.nJoints = 0 ∧
    p.solver.kinematics.numJoints = 1 := by
  obtain ⟨ls, hls⟩ : ∃ ls, KdlConfig.chain uncounted = some ls := ⟨_, rfl⟩
  have hn : Chain.nJoints (ls.map (·.seg)) = 1 := by
    rw [← Option.some.inj hls]
    rfl
  have hadd : ∃ m, addChains uncountedTree Members.new ["arm"] = (true, m) ∧ m.tree.nJoints = 0 := by
    have hc : chain "arm" uncounted = some [("arm_H0", fixedLink 1), ("arm", fixedLink 1)] := rfl
    have ht := (Tree.addChain_iff [("arm_H0", fixedLink 1), ("arm", fixedLink 1)] Tree.empty "root" (by simp)).2
      ⟨Or.inl rfl, by decide, fun x hx => by
        simp only [List.mem_cons, List.not_mem_nil, or_false] at hx
        rcases hx with rfl | rfl <;> (rw [Tree.empty_has]; decide)⟩
    obtain ⟨t', ht'⟩ := Tree.addChain_true ht
    refine ⟨⟨t', ⟨["arm"], fun _ => none⟩⟩, ?_, ?_⟩
    · have hg : (uncountedTree.group "arm").getD nullGroup = uncounted := rfl
      have hh : (uncounted.top.check "hook" (.str "root")).asString = "root" := rfl
      have htcp : Members.new.tcps.addChain (options "arm" uncounted) = some ⟨["arm"], fun _ => none⟩ := rfl
      have ht2 : Members.new.tree.addChain [("arm_H0", fixedLink 1), ("arm", fixedLink 1)] "root" = (true, t') := ht'
      rw [addChains, addChain]
      simp only [hg, hc, hh, ht2, htcp, addChains]
    · obtain ⟨-, h, -⟩ := Tree.addChain_spec _ _ _ _ ht'
      show t'.nJoints = 0
      rw [h]
      simp only [List.map_cons, List.map_nil, Tree.moving_cons, if_neg (fixed_still _), Tree.moving_nil]
      rfl
  obtain ⟨m, hm, hm0⟩ := hadd
  refine ⟨⟨⟨m.tree, m.tcps, ⟨0, 0, -9.81⟩⟩, ([], [], []), "nrjl"⟩, ⟨⟨ls, ls, ⟨0, 0, -9.81⟩⟩, "pinv", "lma", none⟩, ?_, ?_,
    hm0, hn⟩
  · have hl : jointLimits uncountedTree 0 = some ([], [], []) := by
      have e1 : (uncountedTree.top "mins").bind Val.asList = some [] := rfl
      have e2 : (uncountedTree.top "maxs").bind Val.asList = some [] := rfl
      have e3 : (uncountedTree.top "maxvels").bind Val.asList = some [] := rfl
      simp [jointLimits, e1, e2, e3]
    have hm' : addChains uncountedTree Members.new uncountedTree.chains = (true, m) := hm
    have hg : (uncountedTree.top.check "gravity" (.list [0, 0, -9.81])).asList = some [0, 0, -9.81] := rfl
    have hik : (uncountedTree.top.check "ik" (.str "nrjl")).asString = "nrjl" := rfl
    unfold openSolver openFrom
    rw [if_neg (by simp [uncountedTree]), hg]
    simp only [Option.bind_eq_bind, Option.bind_some, hm', hm0, hl, hik, true_or, if_true]
    rfl
  · unfold KdlConfig.openSolver KdlConfig.openFrom
    rw [hls]
    rfl

end KdlTreeConfig

end KD
