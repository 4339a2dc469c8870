import Verif.Props.Builder
import Verif.Programs.TestRobotsLemmas
import Verif.Programs.ScrewTrajectoryLemmas
import Verif.Programs.FileRobot

/-!
# C89: problems found for the robots of the tests and examples
-/

namespace KD

open Builder Sig

/-! ## Specification -/

/-- The robots, each with the number of solutions that is expected of its problem:
/repo/tests/testScrewTheory.cpp:846-900 and the left arm of
/repo/examples/cpp/exampleScrewTheoryTrajectory/exampleScrewTheoryTrajectory.cpp -/
noncomputable def knownRobots : List (Poe × ℕ) := [
  (TestRobots.puma, 8), (TestRobots.stanford, 8), (TestRobots.abbIrb120, 8), (TestRobots.abbIrb910sc, 2),
  (TestRobots.abbIrb6620lx, 4), (TestRobots.teoRightArm, 8), (TestRobots.teoRightLeg, 8), (StDemo.teoLeftArm, 8)]

/-! ## Proofs -/

namespace TestRobots

def teoLeftArmQ : Arm := ⟨StDemo.forward.map fun e => ⟨true, e⟩, ey, ez, ex, ⟨0, 34692 / 100000, -13581 / 100000⟩⟩

theorem teoLeftArm_real : StDemo.teoLeftArm = teoLeftArmQ.real := by
  have h1 := StDemo.teo_exps
  have h2 := StDemo.teo_tool
  generalize StDemo.teoLeftArm = poe at h1 h2
  obtain ⟨es, H⟩ := poe
  subst h1 h2
  unfold Arm.real teoLeftArmQ
  rw [Poe.mk.injEq]
  refine ⟨by rw [List.map_map]; rfl, ?_⟩
  ext <;> simp [ex, ey, ez, Exact.V.real] <;> norm_num

theorem teoLeftArm_sound : sound teoLeftArmQ 8 = true := by decide +kernel

theorem known_arms : ∀ r ∈ knownRobots, ∃ a : Arm, r.1 = a.real ∧ sound a r.2 = true := by
  intro r hr
  simp only [knownRobots, List.mem_cons, List.not_mem_nil, or_false] at hr
  rcases hr with rfl | rfl | rfl | rfl | rfl | rfl | rfl | rfl
  · exact ⟨pumaQ, puma_real, puma_sound⟩
  · exact ⟨stanfordQ, stanford_real, stanford_sound⟩
  · exact ⟨abbIrb120Q, abbIrb120_real, abbIrb120_sound⟩
  · exact ⟨abbIrb910scQ, abbIrb910sc_real, abbIrb910sc_sound⟩
  · exact ⟨abbIrb6620lxQ, abbIrb6620lx_real, abbIrb6620lx_sound⟩
  · exact ⟨teoRightArmQ, teoRightArm_real, teoRightArm_sound⟩
  · exact ⟨teoRightLegQ, teoRightLeg_real, teoRightLeg_sound⟩
  · exact ⟨teoLeftArmQ, teoLeftArm_real, teoLeftArm_sound⟩

theorem sound_spec {a : Arm} {N : ℕ} (h : sound a N = true) : a.joints ≠ [] ∧ unit a = true ∧ rigid a = true ∧
    (a.holds N = true ∧ (a.goes = true ∨ a.rev.holds N = true ∧ a.rev.goes = true)) ∧ clear a = true ∧ clear a.rev = true := by
  simp only [sound, passes, Bool.and_eq_true, Bool.or_eq_true, Bool.not_eq_true', List.isEmpty_eq_false_iff] at h
  tauto

end TestRobots

open TestRobots

/-- The axes are units and the tool is placed by a rigid motion. -/
theorem known_wellformed (r : Poe × ℕ) (hr : r ∈ knownRobots) : (∀ e ∈ r.1.exps, e.Unit) ∧ r.1.tool.IsRigid := by
  obtain ⟨a, ha, hs⟩ := known_arms r hr
  obtain ⟨-, h1, h2, -⟩ := sound_spec hs
  rw [ha]
  exact ⟨unit_real h1, rigid_real h2⟩

/-! ## C89 -/

/-- Whatever numbers are drawn, the builder finds, for each robot, a problem of the expected number of solutions.
Missing: draws that put a point of an axis on an axis that crosses it. -/
theorem C89_found_partial (rnd : ℕ → ℝ) (r : Poe × ℕ) (hr : r ∈ knownRobots)
    (hs : Spread rnd (1 + r.1.exps.length * (r.1.exps.length + 2))) (hc : OffCrossings rnd r.1)
    (hc' : OffCrossings rnd r.1.reverseSelf) :
    ∃ pb subs, build rnd r.1 = some (some (pb, subs)) ∧ pb.soln = r.2 := by
  obtain ⟨h1, h2⟩ := known_wellformed r hr
  obtain ⟨b, hb⟩ := C19_build_returns rnd r.1 h1 h2 hs
  obtain ⟨a, ha, hsd⟩ := known_arms r hr
  obtain ⟨g1, -, -, g2, -⟩ := sound_spec hsd
  rw [ha] at hc hc' hb ⊢
  obtain ⟨pb, subs, rfl, hn⟩ := Arm.built_of_check g1 g2.1 g2.2 hc hc' hb
  exact ⟨pb, subs, hb, hn⟩

/-- However few numbers the source gives: if the builder returns, it is with such a problem. -/
theorem C89_never_null_partial (rnd : ℕ → ℝ) (r : Poe × ℕ) (hr : r ∈ knownRobots) (hc : OffCrossings rnd r.1)
    (hc' : OffCrossings rnd r.1.reverseSelf) (b : Option (IkProblem × List Subproblem)) (hb : build rnd r.1 = some b) :
    ∃ pb subs, b = some (pb, subs) ∧ pb.soln = r.2 := by
  obtain ⟨a, ha, hsd⟩ := known_arms r hr
  obtain ⟨g1, -, -, g2, -⟩ := sound_spec hsd
  rw [ha] at hc hc' hb
  exact Arm.built_of_check g1 g2.1 g2.2 hc hc' hb

/-- Numbers that do for all the robots. -/
example : ∃ rnd : ℕ → ℝ, ∀ r ∈ knownRobots, Spread rnd (1 + r.1.exps.length * (r.1.exps.length + 2)) ∧
    OffCrossings rnd r.1 ∧ OffCrossings rnd r.1.reverseSelf := by
  refine ⟨fun n => (someDraw n : ℝ), fun r hr => ⟨someDraw_spread ?_, ?_⟩⟩
  · simp only [knownRobots, List.mem_cons, List.not_mem_nil, or_false] at hr
    rcases hr with rfl | rfl | rfl | rfl | rfl | rfl | rfl | rfl
    · rw [puma_real]; decide
    · rw [stanford_real]; decide
    · rw [abbIrb120_real]; decide
    · rw [abbIrb910sc_real]; decide
    · rw [abbIrb6620lx_real]; decide
    · rw [teoRightArm_real]; decide
    · rw [teoRightLeg_real]; decide
    · rw [teoLeftArm_real]; decide
  · obtain ⟨a, ha, hsd⟩ := known_arms r hr
    obtain ⟨-, -, -, -, g1, g2⟩ := sound_spec hsd
    rw [ha]
    exact ⟨clear_real g1, by rw [← Arm.rev_real]; exact clear_real g2⟩

/-! ## The robot of the configuration file -/

namespace KdlConfig

open Classical in
/-- Does `ChainIkSolverPos_ST::create` give a solver for these links? `sel` is what the factory of selectors gives. -/
noncomputable def creates (rnd : ℕ → ℝ) (sel : Option Selector) (ls : List Link) : Bool :=
  decide (∃ s, StSolver.create rnd (ls.map (·.seg)) sel = some (some s))

/-- A configuration that declares the links of /repo/share/contexts/testKdlSolverFromFile.ini, with joint limits in order:
the device opens with the solver that it takes by default, whatever numbers are drawn.
Missing: draws that put a point of an axis on an axis that crosses it. -/
theorem C89_file_opens_partial (rnd : ℕ → ℝ) (sel : Option Selector) (w : Bool) {c : Config} (ls : List Link)
    (hrob : Robot c fileBase (fileLinks.map Dh.desc) 1) (mins maxs : List ℝ) (hmin : c.top "mins" = some (.list mins))
    (hmax : c.top "maxs" = some (.list maxs)) (l1 : mins.length = 6) (l2 : maxs.length = 6)
    (hle : ∀ (i : ℕ) a b, mins[i]? = some a → maxs[i]? = some b → a ≤ b)
    (hg : c.top "gravity" = none) (hv : c.top "ikVel" = none) (hk : c.top "ik" = none) (hp : c.top "ikPos" = none)
    (hi : c.top "invKinStrategy" = none) (hl : chain c = some ls) (hs : Spread rnd 49)
    (hc : OffCrossings rnd (Poe.fromChain (ls.map (·.seg))))
    (hc' : OffCrossings rnd (Poe.fromChain (ls.map (·.seg))).reverseSelf) :
    (∃ o, openSolver (creates rnd sel) w c = some (some o) ∧ o.ikPos = "st") ∧
      ∃ s, StSolver.create rnd (ls.map (·.seg)) sel = some (some s) ∧ s.problem.soln = 8 := by
  obtain ⟨ls', e1, e2⟩ := chain_segs hrob
  obtain rfl : ls' = ls := Option.some.inj (e1.symm.trans hl)
  obtain ⟨g1, g3, g4, g2, -⟩ := sound_spec file_sound
  have hpoe : Poe.fromChain (ls'.map (·.seg)) = fileQ.real := by rw [e2, file_real]
  have hst : ∃ s, StSolver.create rnd (ls'.map (·.seg)) sel = some (some s) ∧ s.problem.soln = 8 := by
    rw [hpoe] at hc hc'
    obtain ⟨b, hb⟩ := C19_build_returns rnd fileQ.real (unit_real g3) (rigid_real g4) hs
    obtain ⟨pb, subs, rfl, hn⟩ := Arm.built_of_check g1 g2.1 g2.2 hc hc' hb
    refine ⟨⟨pb, sel, 0⟩, ?_, hn⟩
    unfold StSolver.create
    rw [hpoe, hb]
    rfl
  refine ⟨?_, hst⟩
  obtain ⟨o, ho, -⟩ := C75_opens (st := creates rnd sel) (w := w) hrob mins maxs hmin hmax l1 l2 hle hg hv hk hi
    (Or.inr (Or.inr ⟨hp, fun l h => by
      obtain rfl : ls' = l := Option.some.inj (hl.symm.trans h)
      obtain ⟨s, h1, -⟩ := hst
      exact by simp only [creates, decide_eq_true_eq]; exact ⟨s, h1⟩⟩))
  refine ⟨o, ho, ?_⟩
  obtain ⟨-, -, -, -, h⟩ := open_inv ho
  unfold positionSolver at h
  have h0 : (c.top.check "ikPos" (c.top.check "ik" (.str "st"))).asString = "st" := by simp [Group.check, hp, hk, Val.asString]
  simp only [h0] at h
  simp only [show ¬ ("st" = "lma") by decide, show ¬ ("st" = "nrjl") by decide, if_false, if_true, Option.bind_eq_bind,
    Option.bind_eq_some_iff] at h
  obtain ⟨l, -, h⟩ := h
  split_ifs at h
  exact (Prod.mk.inj (Option.some.inj h)).1.symm

/-- The file, with the limits of /repo/tests/testKdlSolverFromFile.cpp:39. -/
noncomputable def teoFile : Config where
  top := group [("H0", .list [0, -1, 0, 0, 0, 0, 1, 0.34692, -1, 0, 0, 0.4967, 0, 0, 0, 1]), ("numLinks", .int 6),
    ("mins", .list [-70, -15, -10, -100, -90, -100]), ("maxs", .list [45, 70, 75, 10, 90, 10])]
  group k :=
    if k = "link_0" then some (group [("offset", .num 0), ("D", .num 0), ("A", .num 0), ("alpha", .num 90)])
    else if k = "link_1" then some (group [("offset", .num 90), ("D", .num 0), ("A", .num 0), ("alpha", .num 90)])
    else if k = "link_2" then some (group [("offset", .num 90), ("D", .num 0.32901), ("A", .num 0), ("alpha", .num 90)])
    else if k = "link_3" then some (group [("offset", .num 0), ("D", .num 0), ("A", .num 0), ("alpha", .num (-90))])
    else if k = "link_4" then some (group [("offset", .num 0), ("D", .num 0.202), ("A", .num 0), ("alpha", .num 90)])
    else if k = "link_5" then some (group [("offset", .num 90), ("D", .num 0), ("A", .num 0.187496), ("alpha", .num 90)])
    else none

theorem teoFile_robot : Robot teoFile fileBase (fileLinks.map Dh.desc) 1 := by
  constructor
  · rfl
  · exact Or.inl ⟨0, 0, 0, 1, rfl⟩
  · intro i d hd
    match i with
    | 0 => rw [← Option.some.inj hd]; exact .dh rfl (Or.inl rfl) (Or.inl rfl) (Or.inl rfl) (Or.inl rfl)
    | 1 => rw [← Option.some.inj hd]; exact .dh rfl (Or.inl rfl) (Or.inl rfl) (Or.inl rfl) (Or.inl rfl)
    | 2 => rw [← Option.some.inj hd]; exact .dh rfl (Or.inl rfl) (Or.inl rfl) (Or.inl rfl) (Or.inl rfl)
    | 3 => rw [← Option.some.inj hd]; exact .dh rfl (Or.inl rfl) (Or.inl rfl) (Or.inl rfl) (Or.inl rfl)
    | 4 => rw [← Option.some.inj hd]; exact .dh rfl (Or.inl rfl) (Or.inl rfl) (Or.inl rfl) (Or.inl rfl)
    | 5 => rw [← Option.some.inj hd]; exact .dh rfl (Or.inl rfl) (Or.inl rfl) (Or.inl rfl) (Or.inl rfl)
    | i + 6 => simp [fileLinks] at hd
  · exact Or.inr ⟨rfl, rfl⟩

/-- The device of the test opens. -/
example (sel : Option Selector) (w : Bool) : ∃ (rnd : ℕ → ℝ) (o : Opened), openSolver (creates rnd sel) w teoFile = some (some o) ∧ o.ikPos = "st" := by
  obtain ⟨ls, e1, e2⟩ := chain_segs teoFile_robot
  have hpoe : Poe.fromChain (ls.map (·.seg)) = fileQ.real := by rw [e2, file_real]
  obtain ⟨-, -, -, -, g1, g2⟩ := sound_spec file_sound
  refine ⟨fun n => (someDraw n : ℝ), ?_⟩
  refine (C89_file_opens_partial _ sel w ls teoFile_robot [-70, -15, -10, -100, -90, -100] [45, 70, 75, 10, 90, 10] rfl rfl rfl rfl
    (fun i a b ha hb => ?_) rfl rfl rfl rfl rfl e1 (someDraw_spread le_rfl) ?_ ?_).1
  · match i with
    | 0 => simp at ha hb; linarith
    | 1 => simp at ha hb; linarith
    | 2 => simp at ha hb; linarith
    | 3 => simp at ha hb; linarith
    | 4 => simp at ha hb; linarith
    | 5 => simp at ha hb; linarith
    | i + 6 => simp at ha
  · rw [hpoe]; exact clear_real g1
  · rw [hpoe, ← Arm.rev_real]; exact clear_real g2

end KdlConfig

end KD
