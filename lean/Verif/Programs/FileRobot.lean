import Verif.Props.KdlConfig
import Verif.Solver.StSolver
import Verif.Programs.TestRobotsLemmas

/-!
# The robot of the configuration file, with rational coordinates
-/

namespace KD.KdlConfig

open Real Mat3

/-- Links given by DH parameters: offset, D, A and alpha. -/
abbrev Dh := ℝ × ℝ × ℝ × ℝ

def Dh.desc (d : Dh) : Desc := .dh d.1 d.2.1 d.2.2.1 d.2.2.2

noncomputable def Dh.frame (d : Dh) : Frame := dhFrame d.2.2.1 (d.2.2.2 * deg2rad) d.2.1 (d.1 * deg2rad)

noncomputable def Dh.seg (d : Dh) : Segment := Segment.make (joint .rotZ 1) d.frame

theorem dhLink_seg {g : Group} {d : Dh} (h1 : Reads g "offset" d.1) (h2 : Reads g "D" d.2.1) (h3 : Reads g "A" d.2.2.1)
    (h4 : Reads g "alpha" d.2.2.2) : (dhLink g).seg = d.seg := by
  unfold dhLink
  simp only [reads_check h1, reads_check h2, reads_check h3, reads_check h4]
  split <;> rfl

theorem links_segs {c : Config} : ∀ (i : ℕ) (ds : List Dh),
    (∀ (k : ℕ) (d : Desc), (ds.map Dh.desc)[k]? = some d → Declares c (i + k) d) →
    ∃ ls, links c i ds.length = some ls ∧ ls.map (·.seg) = ds.map Dh.seg := by
  intro i ds
  induction ds generalizing i with
  | nil => exact fun _ => ⟨[], rfl, rfl⟩
  | cons d ds ih =>
    intro h
    obtain ⟨ls, h1, h2⟩ := ih (i + 1) fun k e hk => by
      have := h (k + 1) e (by simpa using hk)
      rwa [show i + (k + 1) = i + 1 + k by omega] at this
    have h0 := h 0 d.desc rfl
    rw [Nat.add_zero] at h0
    unfold Dh.desc at h0
    cases h0 with
    | @dh g _ _ _ _ hg g1 g2 g3 g4 =>
      refine ⟨dhLink g :: ls, ?_, by rw [List.map_cons, List.map_cons, dhLink_seg g1 g2 g3 g4, h2]⟩
      simp only [links, link, hg, List.length_cons, h1, Option.bind_eq_bind, Option.bind_some, Option.pure_def]
      rfl

theorem chain_segs {c : Config} {base tip : Frame} {ds : List Dh} (h : Robot c base (ds.map Dh.desc) tip) :
    ∃ ls, chain c = some ls ∧
      ls.map (·.seg) = Segment.make Joint.fixed base :: ds.map Dh.seg ++ [Segment.make Joint.fixed tip] := by
  obtain ⟨ls, h1, h2⟩ := links_segs (c := c) 0 ds fun k d hk => by rw [Nat.zero_add]; exact h.links k d hk
  refine ⟨fixedLink base :: ls ++ [fixedLink tip], ?_, by simp [h2, fixedLink]⟩
  unfold chain
  have hn := h.number
  rw [List.length_map] at hn
  simp only [Group.check, hn, Option.getD_some, Val.asInt, Int.toNat_natCast, h1, holds_matrix h.base,
    holds_matrix h.tip, Option.bind_eq_bind, Option.bind_some, Option.pure_def]

theorem seg_pose (d : Dh) : d.seg.pose 0 = d.frame := by
  unfold Dh.seg Segment.make Segment.pose joint Joint.pose
  ext <;> simp [rotZ, Frame.inv, Frame.act]

theorem make_fixed_pose (f : Frame) : (Segment.make Joint.fixed f).pose 0 = f := by
  unfold Segment.make Segment.pose Joint.fixed Joint.pose
  ext <;> simp [Frame.inv]

/-- The terms that the links turn into, and where the last one ends. -/
noncomputable def Dh.terms : List Dh → Frame → List MatrixExp × Frame
  | [], prev => ([], prev)
  | d :: ds, prev =>
    let r := Dh.terms ds (prev * d.frame)
    (⟨.rotation, (prev.M.mulVec ⟨0, 0, 1⟩).normalize, prev.p⟩ :: r.1, r.2)

theorem loop_terms (ds : List Dh) (tip : Frame) (prev : Frame) :
    Poe.fromChainLoop (ds.map Dh.seg ++ [Segment.make Joint.fixed tip]) prev =
      ((Dh.terms ds prev).1, (Dh.terms ds prev).2 * tip) := by
  induction ds generalizing prev with
  | nil =>
    simp only [List.map_nil, List.nil_append, Poe.fromChainLoop, make_fixed_pose, Dh.terms]
    rfl
  | cons d ds ih =>
    simp only [List.map_cons, List.cons_append, Poe.fromChainLoop, seg_pose, ih, Dh.terms]
    have : Poe.jointTypeToMotion d.seg.joint.type = some .rotation := rfl
    rw [this]
    simp only [Prod.mk.injEq, List.cons.injEq, and_true, TestRobots.changeBase_one]
    unfold MatrixExp.make
    rw [MatrixExp.mk.injEq]
    refine ⟨rfl, rfl, ?_⟩
    show prev.act 0 = _
    ext <;> simp [Frame.act]

theorem fromChain_terms (base tip : Frame) (ds : List Dh) :
    Poe.fromChain (Segment.make Joint.fixed base :: ds.map Dh.seg ++ [Segment.make Joint.fixed tip]) =
      ⟨(Dh.terms ds base).1, (Dh.terms ds base).2 * tip⟩ := by
  have h1 : Poe.fromChainLoop (Segment.make Joint.fixed base :: (ds.map Dh.seg ++ [Segment.make Joint.fixed tip])) 1 =
      Poe.fromChainLoop (ds.map Dh.seg ++ [Segment.make Joint.fixed tip]) base := by
    rw [Poe.fromChainLoop, make_fixed_pose, one_mul]
    rfl
  unfold Poe.fromChain
  rw [List.cons_append, h1, loop_terms]

/-- The frame before the first link, /repo/share/contexts/testKdlSolverFromFile.ini:4. -/
noncomputable def fileBase : Frame := ⟨⟨0, -1, 0, 0, 0, 1, -1, 0, 0⟩, ⟨0, 0.34692, 0.4967⟩⟩

/-- The links, /repo/share/contexts/testKdlSolverFromFile.ini:8-13. -/
noncomputable def fileLinks : List Dh :=
  [(0, 0, 0, 90), (90, 0, 0, 90), (90, 0.32901, 0, 90), (0, 0, 0, -90), (0, 0.202, 0, 90), (90, 0, 0.187496, 90)]

open Sig Exact TestRobots in
def fileQ : Arm := ⟨[t ey ⟨0, 34692 / 100000, 4967 / 10000⟩, t ex ⟨0, 34692 / 100000, 4967 / 10000⟩,
  t ⟨0, 0, -1⟩ ⟨0, 34692 / 100000, 4967 / 10000⟩, t ey ⟨0, 34692 / 100000, 16769 / 100000⟩,
  t ⟨0, 0, -1⟩ ⟨0, 34692 / 100000, 16769 / 100000⟩, t ey ⟨0, 34692 / 100000, -3431 / 100000⟩], ez, ey, ⟨-1, 0, 0⟩,
  ⟨0, 34692 / 100000, -110903 / 500000⟩⟩

theorem d90 : (90 : ℝ) * deg2rad = π / 2 := by unfold deg2rad; ring
theorem dm90 : (-90 : ℝ) * deg2rad = -(π / 2) := by unfold deg2rad; ring
theorem d0 : (0 : ℝ) * deg2rad = 0 := zero_mul _

theorem frame_00 (d a : ℝ) : Dh.frame (0, d, a, 90) = ⟨⟨1, 0, 0, 0, 0, -1, 0, 1, 0⟩, ⟨a, 0, d⟩⟩ := by
  simp [Dh.frame, dhFrame, d90, d0]

theorem frame_90 (d a : ℝ) : Dh.frame (90, d, a, 90) = ⟨⟨0, 0, 1, 1, 0, 0, 0, 1, 0⟩, ⟨0, a, d⟩⟩ := by
  simp [Dh.frame, dhFrame, d90]

theorem frame_m (d a : ℝ) : Dh.frame (0, d, a, -90) = ⟨⟨1, 0, 0, 0, 0, 1, 0, -1, 0⟩, ⟨a, 0, d⟩⟩ := by
  simp [Dh.frame, dhFrame, d90, d0]

theorem file_1 : fileBase * Dh.frame (0, 0, 0, 90) =
    (⟨⟨0, 0, 1, 0, 1, 0, -1, 0, 0⟩, ⟨0, 0.34692, 0.4967⟩⟩ : Frame) := by
  rw [frame_00]; ext <;> simp [fileBase] <;> norm_num

theorem file_2 : (⟨⟨0, 0, 1, 0, 1, 0, -1, 0, 0⟩, ⟨0, 0.34692, 0.4967⟩⟩ : Frame) * Dh.frame (90, 0, 0, 90) =
    (⟨⟨0, 1, 0, 1, 0, 0, 0, 0, -1⟩, ⟨0, 0.34692, 0.4967⟩⟩ : Frame) := by
  rw [frame_90]; ext <;> simp <;> norm_num

theorem file_3 : (⟨⟨0, 1, 0, 1, 0, 0, 0, 0, -1⟩, ⟨0, 0.34692, 0.4967⟩⟩ : Frame) * Dh.frame (90, 0.32901, 0, 90) =
    (⟨⟨1, 0, 0, 0, 0, 1, 0, -1, 0⟩, ⟨0, 0.34692, 0.16769⟩⟩ : Frame) := by
  rw [frame_90]; ext <;> simp <;> norm_num

theorem file_4 : (⟨⟨1, 0, 0, 0, 0, 1, 0, -1, 0⟩, ⟨0, 0.34692, 0.16769⟩⟩ : Frame) * Dh.frame (0, 0, 0, -90) =
    (⟨⟨1, 0, 0, 0, -1, 0, 0, 0, -1⟩, ⟨0, 0.34692, 0.16769⟩⟩ : Frame) := by
  rw [frame_m]; ext <;> simp <;> norm_num

theorem file_5 : (⟨⟨1, 0, 0, 0, -1, 0, 0, 0, -1⟩, ⟨0, 0.34692, 0.16769⟩⟩ : Frame) * Dh.frame (0, 0.202, 0, 90) =
    (⟨⟨1, 0, 0, 0, 0, 1, 0, -1, 0⟩, ⟨0, 0.34692, -0.03431⟩⟩ : Frame) := by
  rw [frame_00]; ext <;> simp <;> norm_num

theorem file_6 : (⟨⟨1, 0, 0, 0, 0, 1, 0, -1, 0⟩, ⟨0, 0.34692, -0.03431⟩⟩ : Frame) * Dh.frame (90, 0, 0.187496, 90) =
    (⟨⟨0, 0, 1, 0, 1, 0, -1, 0, 0⟩, ⟨0, 0.34692, -0.221806⟩⟩ : Frame) := by
  rw [frame_90]; ext <;> simp <;> norm_num

theorem file_real : Poe.fromChain (Segment.make Joint.fixed fileBase :: fileLinks.map Dh.seg ++ [Segment.make Joint.fixed 1]) =
    fileQ.real := by
  have hz : (⟨0, 0, -1⟩ : Vec3).normalize = ⟨0, 0, -1⟩ := Vec3.normalize_of_unit (by simp [Vec3.dot])
  have h1 : fileBase.M.mulVec ⟨0, 0, 1⟩ = ⟨0, 1, 0⟩ := by ext <;> simp [fileBase]
  have h2 : (⟨0, 0, 1, 0, 1, 0, -1, 0, 0⟩ : Mat3).mulVec ⟨0, 0, 1⟩ = ⟨1, 0, 0⟩ := by ext <;> simp
  have h3 : (⟨0, 1, 0, 1, 0, 0, 0, 0, -1⟩ : Mat3).mulVec ⟨0, 0, 1⟩ = ⟨0, 0, -1⟩ := by ext <;> simp
  have h4 : (⟨1, 0, 0, 0, 0, 1, 0, -1, 0⟩ : Mat3).mulVec ⟨0, 0, 1⟩ = ⟨0, 1, 0⟩ := by ext <;> simp
  have h5 : (⟨1, 0, 0, 0, -1, 0, 0, 0, -1⟩ : Mat3).mulVec ⟨0, 0, 1⟩ = ⟨0, 0, -1⟩ := by ext <;> simp
  rw [fromChain_terms]
  simp only [fileLinks, Dh.terms, file_1, file_2, file_3, file_4, file_5, file_6, h1, h2, h3, h4, h5, TestRobots.nx,
    TestRobots.ny, hz, mul_one]
  unfold Sig.Arm.real fileQ
  rw [Poe.mk.injEq]
  constructor
  · simp only [List.map_cons, List.map_nil, Sig.J.real, TestRobots.t, TestRobots.ex, TestRobots.ey, Exact.V.real, if_true,
      List.cons.injEq, MatrixExp.mk.injEq, true_and, and_true, Vec3.ext_iff, fileBase]
    norm_num
  · ext <;> simp [TestRobots.ez, TestRobots.ey, Exact.V.real] <;> norm_num

theorem file_sound : TestRobots.sound fileQ 8 = true := by decide +kernel

end KD.KdlConfig
