import Verif.Solver.KdlTreeConfig
import Verif.Kdl.TreeLemmas
import Verif.Props.KdlConfig
import Verif.Props.KdlTreeSolver

/-!
# C79: the tree solver is the robot that its configuration describes
-/

namespace KD

open Vec3 KdlVectorConverter KdlConfig

namespace KdlTreeConfig

/-! ### Specification -/

/-- A limb of a robot: its name, the place it is hooked to, the frames before its first link and after its last one,
its links (see C75), whether its end is a TCP, and the TCP it goes with. -/
structure Branch where
  name : String
  hook : String
  base : Frame
  descs : List Desc
  tip : Frame
  tcp : Bool
  merge : Option String

/-- Name of a link. -/
def linkName (limb : String) (i : ℕ) : Desc → String
  | .dh .. => limb ++ "_" ++ ("link_" ++ toString i)
  | _ => limb ++ "_" ++ ("xyzLink_" ++ toString i)

/-- The places of a limb that others can be hooked to: its base, the end of each link, and its end, which has the
name of the limb. -/
def Branch.segments (b : Branch) : List String :=
  (b.name ++ "_H0") :: b.descs.mapIdx (fun i d => linkName b.name i d) ++ [b.name]

/-- The configuration describes this limb. -/
def Branch.Declared (c : TreeConfig) (b : Branch) : Prop :=
  ∃ cc, c.group b.name = some cc ∧ Robot cc b.base b.descs b.tip ∧
    (cc.top "hook" = some (.str b.hook) ∨ cc.top "hook" = none ∧ b.hook = "root") ∧
    (cc.top "endpoint" = some (.int 1) ∧ b.tcp = true ∨ cc.top "endpoint" = none ∧ b.tcp = false) ∧
    cc.top "mergeWith" = b.merge.map .str

/-- The configuration describes a robot with these limbs. -/
structure Describes (c : TreeConfig) (bs : List Branch) : Prop where
  chains : c.chains = bs.map (·.name)
  limbs : ∀ b ∈ bs, b.Declared c

/-- Joints of the first `k` limbs: the number of the first joint of the next one. -/
def start (bs : List Branch) (k : ℕ) : ℕ := ((bs.take k).map (·.descs.length)).sum

/-- Where everything is, with the joints at `q` degrees: each limb starts where its hook is and goes on link by
link; the joints are those of the first limb, then those of the second one and so on. -/
structure Placed (bs : List Branch) (q : List ℝ) (at_ : String → Frame) : Prop where
  root : at_ "root" = 1
  segment : ∀ (k : ℕ) (b : Branch), bs[k]? = some b → ∀ (i : ℕ) (x : String), i ≤ b.descs.length →
    b.segments[i]? = some x → at_ x = at_ b.hook * b.base *
      (List.zipWith (fun d x => d.place x) (b.descs.take i) (q.drop (start bs k))).prod
  tip : ∀ (k : ℕ) (b : Branch), bs[k]? = some b → at_ b.name = at_ b.hook * b.base *
      (List.zipWith (fun d x => d.place x) b.descs (q.drop (start bs k))).prod * b.tip

/-- A robot that can be put together: each limb is hooked to the root or to one of the limbs before it, no two places
have the same name, and TCPs go with TCPs that are known. -/
structure Sound (bs : List Branch) : Prop where
  hooks : ∀ (k : ℕ) (b : Branch), bs[k]? = some b → b.hook ∈ "root" :: (bs.take k).flatMap (·.segments)
  names : ("root" :: bs.flatMap (·.segments)).Nodup
  merges : ∀ (k : ℕ) (b : Branch), bs[k]? = some b → b.tcp = true → ∀ o, b.merge = some o →
    o ∈ ((bs.take (k + 1)).filter (·.tcp)).map (·.name)

/-! ### Helpers -/

/-- What is known of a link. -/
abbrev Fits (l : Link) (d : Desc) : Prop :=
  l.seg.joint.type ≠ .none ∧ (∀ q, Desc.Turns d → l.seg.pose (q * deg2rad) = d.place q) ∧
    (∀ q, ¬ Desc.Turns d → l.seg.pose q = d.place q)

theorem link_of_declared (name : String) {c : Config} {i : ℕ} {d : Desc} (h : Declares c i d) :
    ∃ l, link name c i = some [(linkName name i d, l)] ∧ KdlConfig.link c i = some [l] ∧ Fits l d := by
  obtain ⟨l, h1, h2⟩ := KdlConfig.link_of_declared h
  refine ⟨l, ?_, h1, h2⟩
  unfold KdlConfig.link at h1
  unfold link
  cases h with
  | dh hg =>
    rw [hg] at h1 ⊢
    simp only [List.singleton_injective (Option.some.inj h1)]
    rfl
  | turn hn hg =>
    rw [hn, hg] at h1 ⊢
    simp only [Option.some.inj h1]
    rfl
  | slide hn hg =>
    rw [hn, hg] at h1 ⊢
    simp only [Option.some.inj h1]
    rfl

theorem links_of_declared (name : String) {c : Config} (n : ℕ) : ∀ (i : ℕ) (descs : List Desc), descs.length = n →
    (∀ (k : ℕ) (d : Desc), descs[k]? = some d → Declares c (i + k) d) →
    ∃ segs, links name c i n = some segs ∧ segs.map (·.1) = descs.mapIdx (fun k d => linkName name (i + k) d) ∧
      KdlConfig.links c i n = some (segs.map (·.2)) ∧ List.Forall₂ Fits (segs.map (·.2)) descs := by
  induction n with
  | zero =>
    intro i descs hl _
    rw [List.length_eq_zero_iff.mp hl]
    exact ⟨[], rfl, rfl, rfl, List.Forall₂.nil⟩
  | succ n ih =>
    intro i descs hl hd
    cases descs with
    | nil => simp at hl
    | cons d descs =>
      obtain ⟨l, h1, h1', h2⟩ := link_of_declared name (hd 0 d rfl)
      obtain ⟨segs, h3, h4, h4', h5⟩ := ih (i + 1) descs (by simpa using hl) (fun k e hk => by
        have := hd (k + 1) e (by simpa using hk)
        rwa [show i + (k + 1) = i + 1 + k by omega] at this)
      refine ⟨(linkName name i d, l) :: segs, ?_, ?_, ?_, List.Forall₂.cons h2 h5⟩
      · rw [Nat.add_zero] at h1
        simp only [links, h1, h3, Option.bind_eq_bind, Option.bind_some, Option.pure_def]
        rfl
      · rw [List.map_cons, h4, List.mapIdx_cons]
        have : (fun k d => linkName name (i + 1 + k) d) = fun k d => linkName name (i + (k + 1)) d := by
          funext k d
          rw [show i + 1 + k = i + (k + 1) by omega]
        rw [this]
        rfl
      · rw [Nat.add_zero] at h1'
        simp only [KdlConfig.links, h1', h4', Option.bind_eq_bind, Option.bind_some, Option.pure_def]
        rfl

/-- The segments of a limb. -/
theorem chain_of_declared {c : Config} {b : Branch} (h : Robot c b.base b.descs b.tip) :
    ∃ segs, chain b.name c =
        some ((b.name ++ "_H0", fixedLink b.base) :: segs ++ [(b.name, fixedLink b.tip)]) ∧
      segs.map (·.1) = b.descs.mapIdx (fun k d => linkName b.name k d) ∧
      KdlConfig.links c 0 b.descs.length = some (segs.map (·.2)) ∧ List.Forall₂ Fits (segs.map (·.2)) b.descs := by
  obtain ⟨segs, h1, h2, h2', h3⟩ := links_of_declared b.name b.descs.length 0 b.descs rfl (fun k d hk => by
    rw [Nat.zero_add]; exact h.links k d hk)
  refine ⟨segs, ?_, by simpa using h2, h2', h3⟩
  unfold chain
  simp only [Group.check, h.number, Option.getD_some, Val.asInt, Int.toNat_natCast, h1, holds_matrix h.base,
    holds_matrix h.tip, Option.bind_eq_bind, Option.bind_some, Option.pure_def]

theorem moving_fits {ls : List Link} {descs : List Desc} (h : List.Forall₂ Fits ls descs) :
    Tree.moving ls = descs.length := by
  induction h with
  | nil => rfl
  | cons h1 _ ih => rw [Tree.moving_cons, if_pos h1.1, ih, List.length_cons, Nat.add_comm]

theorem fixed_still (f : Frame) : ¬ (fixedLink f).Moving := by
  simp [fixedLink, Segment.make, Joint.fixed]

theorem poseOf_append (q : List ℝ) (a b : List Link) : ∀ n, Tree.poseOf q n (a ++ b) =
    Tree.poseOf q n a * Tree.poseOf q (n + Tree.moving a) b := by
  induction a with
  | nil => intro n; simp [Tree.poseOf, Tree.moving_nil]
  | cons l a ih =>
    intro n
    rw [List.cons_append, Tree.poseOf, Tree.poseOf, Tree.moving_cons]
    by_cases h : l.Moving
    · rw [if_pos h, if_pos h, if_pos h, ih, mul_assoc, Nat.add_assoc]
    · rw [if_neg h, if_neg h, if_neg h, ih, mul_assoc, Nat.zero_add]

theorem poseOf_fits {ls : List Link} {descs : List Desc} (h : List.Forall₂ Fits ls descs)
    (ht : ∀ d ∈ descs, d.Turns) (q : List ℝ) : ∀ n, n + descs.length ≤ q.length →
    Tree.poseOf (q.map (· * deg2rad)) n ls = (List.zipWith (fun d x => d.place x) descs (q.drop n)).prod := by
  induction h with
  | nil => intro n _; simp [Tree.poseOf]
  | @cons l d ls descs h1 _ ih =>
    intro n hn
    rw [List.length_cons] at hn
    have hlt : n < q.length := by omega
    rw [Tree.poseOf, if_pos h1.1, ih (fun d hd => ht d (by simp [hd])) (n + 1) (by omega),
      List.drop_eq_getElem_cons hlt, List.zipWith_cons_cons, List.prod_cons]
    congr 1
    rw [List.getD_eq_getElem?_getD, List.getElem?_map, List.getElem?_eq_getElem hlt, Option.map_some, Option.getD_some]
    exact h1.2.1 _ (ht d (by simp))

/-- What the loop over the chains does to the TCPs. -/
theorem tcps_addChain {c : Config} {b : Branch} (he : c.top "endpoint" = some (.int 1) ∧ b.tcp = true ∨
    c.top "endpoint" = none ∧ b.tcp = false) (hm : c.top "mergeWith" = b.merge.map .str) (t : Tcps) :
    ((∃ t', t.addChain (options b.name c) = some t') ↔
      (b.tcp = true → ∀ o, b.merge = some o → o ∈ t.endpoints ++ [b.name])) ∧
    ∀ t', t.addChain (options b.name c) = some t' → t'.endpoints = t.endpoints ++ (if b.tcp then [b.name] else []) := by
  unfold Tcps.addChain options
  rw [hm]
  rcases he with ⟨h1, h2⟩ | ⟨h1, h2⟩
  · rw [h2]
    simp only [Group.check, h1, Option.getD_some, asBool, ne_eq, one_ne_zero, not_false_eq_true, decide_true, if_true]
    cases b.merge with
    | none =>
      simp only [Option.map_none, Option.some.injEq]
      exact ⟨by simp, fun t' e => by rw [← e]⟩
    | some o =>
      simp only [Option.map_some, Val.asString]
      by_cases ho : o ∈ t.endpoints ++ [b.name]
      · rw [if_pos ho]
        refine ⟨by simpa using ho, fun t' e => by rw [← Option.some.inj e]⟩
      · rw [if_neg ho]
        refine ⟨iff_of_false (by simp) (by simpa using ho), fun t' e => by cases e⟩
  · rw [h2]
    simp only [Group.check, h1, Option.getD_none, asBool, ne_eq, not_true_eq_false, decide_false, Bool.false_eq_true,
      if_false]
    refine ⟨by simp, fun t' e => by rw [← Option.some.inj e]; simp⟩

/-- What a limb needs to be added. -/
structure Fitting (m : Members) (b : Branch) : Prop where
  hook : m.tree.Has b.hook
  own : b.segments.Nodup
  new : ∀ x ∈ b.segments, ¬ m.tree.Has x
  merge : b.tcp = true → ∀ o, b.merge = some o → o ∈ m.tcps.endpoints ++ [b.name]

/-- One turn of the loop. -/
theorem addChain_spec {c : TreeConfig} {b : Branch} (hb : b.Declared c) (m : Members) :
    ((addChain c m b.name).1 = true ↔ Fitting m b) ∧
    ∀ m', addChain c m b.name = (true, m') →
      (∀ x, m'.tree.Has x ↔ m.tree.Has x ∨ x ∈ b.segments) ∧
      m'.tree.nJoints = m.tree.nJoints + b.descs.length ∧
      (∀ q x, m.tree.Has x → Tree.fkLoop q m'.tree.nodes x = Tree.fkLoop q m.tree.nodes x) ∧
      (m.tree.Good → m'.tree.Good) ∧
      m'.tcps.endpoints = m.tcps.endpoints ++ (if b.tcp then [b.name] else []) ∧
      ((∀ d ∈ b.descs, d.Turns) → ∀ q : List ℝ, m.tree.nJoints + b.descs.length ≤ q.length → 
        (∀ (i : ℕ) (x : String), i ≤ b.descs.length → b.segments[i]? = some x →
          Tree.fkLoop (q.map (· * deg2rad)) m'.tree.nodes x =
            (Tree.fkLoop (q.map (· * deg2rad)) m.tree.nodes b.hook).map (· * (b.base *
              (List.zipWith (fun d x => d.place x) (b.descs.take i) (q.drop m.tree.nJoints)).prod))) ∧
        Tree.fkLoop (q.map (· * deg2rad)) m'.tree.nodes b.name =
          (Tree.fkLoop (q.map (· * deg2rad)) m.tree.nodes b.hook).map (· * (b.base *
            (List.zipWith (fun d x => d.place x) b.descs (q.drop m.tree.nJoints)).prod * b.tip))) := by
  obtain ⟨cc, h1, h2, h3, h4, h5⟩ := hb
  obtain ⟨ls, g1, g2, -, g3⟩ := chain_of_declared h2
  obtain ⟨k1, k2⟩ := tcps_addChain h4 h5 m.tcps
  have hh : (cc.top.check "hook" (.str "root")).asString = b.hook := by
    rcases h3 with h3 | ⟨h3, h3'⟩
    · simp [Group.check, h3, Val.asString]
    · simp [Group.check, h3, h3', Val.asString]
  set segs := (b.name ++ "_H0", fixedLink b.base) :: ls ++ [(b.name, fixedLink b.tip)] with hsegs
  have hnames : segs.map (·.1) = b.segments := by
    rw [hsegs, Branch.segments, List.map_append, List.map_cons, g2]
    rfl
  have hlen : ls.length = b.descs.length := by
    have := g3.length_eq
    rwa [List.length_map] at this
  have hiff := Tree.addChain_iff segs m.tree b.hook (by simp [hsegs])
  rw [hnames] at hiff
  have hnew : (∀ x ∈ segs, ¬ m.tree.Has x.1) ↔ ∀ x ∈ b.segments, ¬ m.tree.Has x := by
    rw [← hnames]
    simp
  rw [hnew] at hiff
  have hstep : addChain c m b.name = match m.tree.addChain segs b.hook with
    | (false, tree) => (false, { m with tree := tree })
    | (true, tree) =>
      match m.tcps.addChain (options b.name cc) with
      | none => (false, ⟨tree, { m.tcps with endpoints := m.tcps.endpoints ++ [b.name] }⟩)
      | some tcps => (true, ⟨tree, tcps⟩) := by
    unfold addChain
    rw [h1, Option.getD_some]
    simp only [g1, hh]
    rfl
  rw [hstep]
  cases hadd : m.tree.addChain segs b.hook with
  | mk ok tree =>
    rw [hadd] at hiff
    cases ok with
    | false =>
      simp only
      refine ⟨iff_of_false (by simp) ?_, fun m' e => by simp at e⟩
      intro hf
      have := hiff.mpr ⟨hf.hook, hf.own, hf.new⟩
      simp at this
    | true =>
      have hf := hiff.mp rfl
      simp only
      cases ht : m.tcps.addChain (options b.name cc) with
      | none =>
        simp only
        refine ⟨iff_of_false (by simp) ?_, fun m' e => by simp at e⟩
        intro hf'
        obtain ⟨t', e⟩ := k1.mpr hf'.merge
        rw [ht] at e
        cases e
      | some tcps =>
        simp only
        refine ⟨iff_of_true trivial ⟨hf.1, hf.2.1, hf.2.2, k1.mp ⟨_, ht⟩⟩, ?_⟩
        intro m' e
        simp only [Prod.mk.injEq, true_and] at e
        subst e
        obtain ⟨s1, s2, s3, s4, s5⟩ := Tree.addChain_spec segs _ _ _ hadd
        have hlinks : segs.map (·.2) = fixedLink b.base :: ls.map (·.2) ++ [fixedLink b.tip] := by
          rw [hsegs, List.map_append, List.map_cons]
          rfl
        refine ⟨?_, ?_, s3, s5, k2 _ ht, ?_⟩
        · intro x
          rw [s1, hnames]
        · show tree.nJoints = _
          rw [s2, hlinks, Tree.moving_append, Tree.moving_cons, if_neg (fixed_still _), moving_fits g3, Tree.moving_cons,
            if_neg (fixed_still _), Tree.moving_nil]
          omega
        · intro hturn q hq
          have hfixed : ∀ q n f ls, Tree.poseOf q n (fixedLink f :: ls) = f * Tree.poseOf q n ls := by
            intro q n f ls
            rw [Tree.poseOf, if_neg (fixed_still _), fixed_pose]
          constructor
          · intro i x hi hx
            have hx' : ∃ y, segs[i]? = some y ∧ y.1 = x := by
              rw [← hnames, List.getElem?_map, Option.map_eq_some_iff] at hx
              exact hx
            obtain ⟨y, hy, rfl⟩ := hx'
            rw [s4 _ i y hy]
            congr 2
            funext F
            congr 1
            have htake : (segs.take (i + 1)).map (·.2) = fixedLink b.base :: (ls.map (·.2)).take i := by
              rw [List.map_take, hlinks, List.cons_append, List.take_succ_cons, List.take_append_of_le_length]
              rw [List.length_map, hlen]
              exact hi
            rw [htake, hfixed, poseOf_fits (List.forall₂_take i g3) (fun d hd => hturn d (List.mem_of_mem_take hd)) q _
              (by rw [List.length_take]; omega)]
          · have hy : segs[b.descs.length + 1]? = some (b.name, fixedLink b.tip) := by
              rw [hsegs, List.cons_append, List.getElem?_cons_succ, ← hlen, List.getElem?_append_right (Nat.le_refl _),
                Nat.sub_self]
              rfl
            rw [show b.name = (b.name, fixedLink b.tip).1 from rfl, s4 _ _ _ hy]
            congr 2
            funext F
            congr 1
            have htake : (segs.take (b.descs.length + 1 + 1)).map (·.2) =
                fixedLink b.base :: (ls.map (·.2) ++ [fixedLink b.tip]) := by
              rw [List.map_take, hlinks, List.cons_append, List.take_of_length_le]
              simp [hlen]
            rw [htake, hfixed, poseOf_append, hfixed, poseOf_fits g3 hturn q _ hq]
            simp [Tree.poseOf, mul_assoc]

/-- All the limbs can be added, one after the other. -/
inductive FitAll : List String → List String → List Branch → Prop
  | nil {has tcps} : FitAll has tcps []
  | cons {has tcps b bs} (hook : b.hook ∈ has) (own : b.segments.Nodup) (new : ∀ x ∈ b.segments, x ∉ has)
      (merge : b.tcp = true → ∀ o, b.merge = some o → o ∈ tcps ++ [b.name])
      (rest : FitAll (has ++ b.segments) (tcps ++ (if b.tcp then [b.name] else [])) bs) : FitAll has tcps (b :: bs)

/-- The whole loop. -/
theorem addChains_spec {c : TreeConfig} : ∀ (bs : List Branch), (∀ b ∈ bs, b.Declared c) → ∀ (m : Members)
    (has : List String), (∀ x, m.tree.Has x ↔ x ∈ has) →
    ((addChains c m (bs.map (·.name))).1 = true ↔ FitAll has m.tcps.endpoints bs) ∧
    ∀ m', addChains c m (bs.map (·.name)) = (true, m') →
      (∀ x, m'.tree.Has x ↔ x ∈ has ++ bs.flatMap (·.segments)) ∧
      m'.tree.nJoints = m.tree.nJoints + (bs.map (·.descs.length)).sum ∧
      (∀ q x, m.tree.Has x → Tree.fkLoop q m'.tree.nodes x = Tree.fkLoop q m.tree.nodes x) ∧
      (m.tree.Good → m'.tree.Good) ∧
      m'.tcps.endpoints = m.tcps.endpoints ++ (bs.filter (·.tcp)).map (·.name) ∧
      ((∀ b ∈ bs, ∀ d ∈ b.descs, d.Turns) → ∀ q : List ℝ,
        m.tree.nJoints + (bs.map (·.descs.length)).sum ≤ q.length →
        ∀ (k : ℕ) (b : Branch), bs[k]? = some b → m'.tree.Has b.hook ∧
          (∀ (i : ℕ) (x : String), i ≤ b.descs.length → b.segments[i]? = some x →
            Tree.fkLoop (q.map (· * deg2rad)) m'.tree.nodes x =
              (Tree.fkLoop (q.map (· * deg2rad)) m'.tree.nodes b.hook).map (· * (b.base *
                (List.zipWith (fun d x => d.place x) (b.descs.take i) (q.drop (m.tree.nJoints + start bs k))).prod))) ∧
          Tree.fkLoop (q.map (· * deg2rad)) m'.tree.nodes b.name =
            (Tree.fkLoop (q.map (· * deg2rad)) m'.tree.nodes b.hook).map (· * (b.base *
              (List.zipWith (fun d x => d.place x) b.descs (q.drop (m.tree.nJoints + start bs k))).prod * b.tip))) := by
  intro bs
  induction bs with
  | nil =>
    intro _ m has hhas
    refine ⟨iff_of_true rfl .nil, fun m' e => ?_⟩
    simp only [List.map_nil, addChains, Prod.mk.injEq, true_and] at e
    subst e
    simpa using hhas
  | cons b bs ih =>
    intro hb m has hhas
    obtain ⟨s1, s2⟩ := addChain_spec (hb b (by simp)) m
    rw [List.map_cons, addChains]
    cases hadd : addChain c m b.name with
    | mk ok m1 =>
      rw [hadd] at s1
      cases ok with
      | false =>
        simp only
        refine ⟨iff_of_false (by simp) ?_, fun m' e => by simp at e⟩
        intro hf
        cases hf with
        | cons hook own new merge rest =>
          have := s1.mpr ⟨(hhas _).mpr hook, own, fun x hx hh => new x hx ((hhas x).mp hh), merge⟩
          simp at this
      | true =>
        simp only
        obtain ⟨a1, a2, a3, a4, a5, a6⟩ := s2 m1 hadd
        have hfit := s1.mp rfl
        obtain ⟨i1, i2⟩ := ih (fun b' hb' => hb b' (by simp [hb'])) m1 (has ++ b.segments) (fun x => by
          rw [a1, hhas, List.mem_append])
        rw [a5] at i1
        constructor
        · rw [i1]
          constructor
          · intro h
            exact .cons ((hhas _).mp hfit.hook) hfit.own (fun x hx hh => hfit.new x hx ((hhas x).mpr hh)) hfit.merge h
          · intro h
            cases h with
            | cons _ _ _ _ rest => exact rest
        · intro m' e
          obtain ⟨b1, b2, b3, b4, b5, b6⟩ := i2 m' e
          refine ⟨?_, ?_, ?_, fun hg => b4 (a4 hg), ?_, ?_⟩
          · intro x
            rw [b1, List.flatMap_cons, List.append_assoc]
          · rw [b2, a2, List.map_cons, List.sum_cons]
            omega
          · intro q x hx
            rw [b3 q x ((a1 x).mpr (Or.inl hx)), a3 q x hx]
          · rw [b5, a5]
            cases ht : b.tcp <;> simp [ht]
          · intro hturn q hq k b' hk
            rw [List.map_cons, List.sum_cons] at hq
            cases k with
            | zero =>
              simp only [List.getElem?_cons_zero, Option.some.injEq] at hk
              subst hk
              obtain ⟨c1, c2⟩ := a6 (hturn b (by simp)) q (by omega)
              have hh : m1.tree.Has b.hook := (a1 _).mpr (Or.inl hfit.hook)
              refine ⟨(b1 _).mpr (List.mem_append_left _ (List.mem_append_left _ ((hhas _).mp hfit.hook))), ?_, ?_⟩
              · intro i x hi hx
                have hx1 : m1.tree.Has x := (a1 x).mpr (Or.inr (List.mem_of_getElem? hx))
                rw [b3 _ x hx1, c1 i x hi hx, b3 _ b.hook hh, a3 _ b.hook hfit.hook]
                simp [start]
              · have hx1 : m1.tree.Has b.name := (a1 _).mpr (Or.inr (by simp [Branch.segments]))
                rw [b3 _ b.name hx1, c2, b3 _ b.hook hh, a3 _ b.hook hfit.hook]
                simp [start]
            | succ k =>
              rw [List.getElem?_cons_succ] at hk
              have := b6 (fun b' hb' => hturn b' (by simp [hb'])) q (by omega) k b' hk
              have e : m1.tree.nJoints + start bs k = m.tree.nJoints + start (b :: bs) (k + 1) := by
                rw [a2]
                simp [start]
                omega
              rw [e] at this
              exact this

/-- What a successful `open` has gone through. -/
theorem open_inv {c : TreeConfig} {m : Members} {r : Members × Option Opened} {o : Opened}
    (h : openFrom m c = some r) (hr : r.2 = some o) :
    c.chains ≠ [] ∧ (∃ g, (c.top.check "gravity" (.list [0, 0, -9.81])).asList = some g ∧
      o.solver.gravity = ⟨get g 0, get g 1, get g 2⟩) ∧
      addChains c m c.chains = (true, ⟨o.solver.tree, o.solver.tcps⟩) ∧ r.1 = ⟨o.solver.tree, o.solver.tcps⟩ ∧
      jointLimits c o.solver.tree.nJoints = some o.limits ∧ (o.ik = "nrjl" ∨ o.ik = "online") := by
  unfold openFrom at h
  by_cases hc : c.chains = []
  · rw [if_pos hc] at h
    rw [← Option.some.inj h] at hr
    cases hr
  rw [if_neg hc] at h
  refine ⟨hc, ?_⟩
  obtain ⟨g, hg, h⟩ := Option.bind_eq_some_iff.mp h
  cases hadd : addChains c m c.chains with
  | mk ok m' =>
    rw [hadd] at h
    cases ok with
    | false =>
      simp only [Option.pure_def, Option.some.injEq] at h
      rw [← h] at hr
      cases hr
    | true =>
      simp only at h
      cases hl : jointLimits c m'.tree.nJoints with
      | none =>
        rw [hl] at h
        simp only [Option.pure_def, Option.some.injEq] at h
        rw [← h] at hr
        cases hr
      | some l =>
        rw [hl] at h
        simp only at h
        by_cases hik : (c.top.check "ik" (.str "nrjl")).asString = "nrjl" ∨
            (c.top.check "ik" (.str "nrjl")).asString = "online"
        · rw [if_pos hik] at h
          simp only [Option.pure_def, Option.some.injEq] at h
          rw [← h] at hr ⊢
          simp only [Option.some.injEq] at hr
          subst hr
          exact ⟨⟨g, hg, rfl⟩, rfl, rfl, hl, hik⟩
        · rw [if_neg hik] at h
          simp only [Option.pure_def, Option.some.injEq] at h
          rw [← h] at hr
          cases hr

theorem openSolver_inv {c : TreeConfig} {o : Opened} (h : openSolver c = some (some o)) :
    ∃ r, openFrom Members.new c = some r ∧ r.2 = some o := by
  unfold openSolver at h
  exact Option.map_eq_some_iff.mp h

theorem new_has (x : String) : Members.new.tree.Has x ↔ x ∈ ["root"] := by
  rw [List.mem_singleton]
  exact Tree.empty_has x

theorem poses_all (s : KdlTreeSolver) (q : List ℝ) (at_ : String → Frame) : ∀ es : List String,
    (∀ e ∈ es, s.fk q e = some (at_ e)) → s.poses q es = some (es.flatMap fun e => frameToVector (at_ e)) := by
  intro es
  induction es with
  | nil => intro _; rfl
  | cons e es ih =>
    intro h
    rw [KdlTreeSolver.poses, h e (by simp), ih (fun e' he' => h e' (by simp [he']))]
    rfl

/-- Limits that fit the joints. -/
theorem limits_iff {c : TreeConfig} {n : ℕ} {mins maxs maxvels : List ℝ} (h1 : c.top "mins" = some (.list mins))
    (h2 : c.top "maxs" = some (.list maxs)) (h3 : c.top "maxvels" = some (.list maxvels)) :
    ((∃ l, jointLimits c n = some l) ↔ mins.length = n ∧ maxs.length = n ∧ maxvels.length = n ∧
      ∀ (i : ℕ) a b, mins[i]? = some a → maxs[i]? = some b → a ≤ b) ∧
    ∀ l, jointLimits c n = some l →
      l = (mins.map (· * deg2rad), maxs.map (· * deg2rad), maxvels.map (· * deg2rad)) := by
  have hd : 0 < deg2rad := by unfold deg2rad; positivity
  unfold jointLimits
  rw [h1, h2, h3]
  simp only [Option.bind_some, Val.asList]
  by_cases hl : maxs.length ≠ n ∨ mins.length ≠ n ∨ maxvels.length ≠ n
  · rw [if_pos hl]
    refine ⟨iff_of_false (by simp) ?_, fun l e => by cases e⟩
    rintro ⟨a1, a2, a3, -⟩
    rcases hl with hl | hl | hl
    · exact hl a2
    · exact hl a1
    · exact hl a3
  rw [if_neg hl]
  push Not at hl
  have hany : ((List.zip (mins.map (· * deg2rad)) (maxs.map (· * deg2rad))).any (fun p => p.1 > p.2)) = true ↔
      ¬ ∀ (i : ℕ) a b, mins[i]? = some a → maxs[i]? = some b → a ≤ b := by
    rw [List.any_eq_true]
    push Not
    constructor
    · rintro ⟨⟨a, b⟩, hab, hlt⟩
      obtain ⟨i, hi⟩ := List.mem_iff_getElem?.mp hab
      rw [List.getElem?_zip_eq_some] at hi
      obtain ⟨i1, i2⟩ := hi
      rw [List.getElem?_map, Option.map_eq_some_iff] at i1 i2
      obtain ⟨a', ha, rfl⟩ := i1
      obtain ⟨b', hb, rfl⟩ := i2
      refine ⟨i, a', b', ha, hb, ?_⟩
      simp only [decide_eq_true_eq, gt_iff_lt] at hlt
      nlinarith
    · rintro ⟨i, a, b, ha, hb, hlt⟩
      refine ⟨(a * deg2rad, b * deg2rad), ?_, ?_⟩
      · rw [List.mem_iff_getElem?]
        refine ⟨i, ?_⟩
        rw [List.getElem?_zip_eq_some]
        simp [ha, hb]
      · simp only [decide_eq_true_eq, gt_iff_lt]
        nlinarith
  by_cases ha : ((List.zip (mins.map (· * deg2rad)) (maxs.map (· * deg2rad))).any (fun p => p.1 > p.2)) = true
  · rw [if_pos ha]
    refine ⟨iff_of_false (by simp) ?_, fun l e => by cases e⟩
    rintro ⟨-, -, -, h⟩
    exact (hany.mp ha) h
  · rw [if_neg ha]
    refine ⟨iff_of_true ⟨_, rfl⟩ ⟨hl.2.1, hl.1, hl.2.2, ?_⟩, fun l e => (Option.some.inj e).symm⟩
    by_contra h
    exact ha (hany.mpr h)

theorem fitAll_iff : ∀ (bs : List Branch) (has tcps : List String), FitAll has tcps bs ↔
    (∀ (k : ℕ) (b : Branch), bs[k]? = some b → b.hook ∈ has ++ (bs.take k).flatMap (·.segments)) ∧
    (bs.flatMap (·.segments)).Nodup ∧ (∀ x ∈ bs.flatMap (·.segments), x ∉ has) ∧
    (∀ (k : ℕ) (b : Branch), bs[k]? = some b → b.tcp = true → ∀ o, b.merge = some o →
      o ∈ tcps ++ ((bs.take (k + 1)).filter (·.tcp)).map (·.name)) := by
  intro bs
  induction bs with
  | nil =>
    intro has tcps
    exact iff_of_true .nil ⟨by simp, by simp, by simp, by simp⟩
  | cons b bs ih =>
    intro has tcps
    constructor
    · intro h
      cases h with
      | cons hook own new merge rest =>
        obtain ⟨a1, a2, a3, a4⟩ := (ih _ _).mp rest
        refine ⟨?_, ?_, ?_, ?_⟩
        · intro k b' hk
          cases k with
          | zero =>
            simp only [List.getElem?_cons_zero, Option.some.injEq] at hk
            subst hk
            simpa using hook
          | succ k =>
            have := a1 k b' (by simpa using hk)
            rwa [List.take_succ_cons, List.flatMap_cons, ← List.append_assoc]
        · rw [List.flatMap_cons, List.nodup_append]
          refine ⟨own, a2, ?_⟩
          intro x hx y hy e
          exact a3 y hy (List.mem_append_right _ (e ▸ hx))
        · intro x hx
          rw [List.flatMap_cons, List.mem_append] at hx
          rcases hx with hx | hx
          · exact new x hx
          · exact fun hh => a3 x hx (List.mem_append_left _ hh)
        · intro k b' hk htcp o ho
          cases k with
          | zero =>
            simp only [List.getElem?_cons_zero, Option.some.injEq] at hk
            subst hk
            have := merge htcp o ho
            simpa [htcp] using this
          | succ k =>
            have := a4 k b' (by simpa using hk) htcp o ho
            rw [List.take_succ_cons]
            cases ht : b.tcp <;> simp [ht] at this ⊢ <;> exact this
    · rintro ⟨a1, a2, a3, a4⟩
      rw [List.flatMap_cons, List.nodup_append] at a2
      refine .cons (by simpa using a1 0 b rfl) a2.1 (fun x hx => a3 x (by simp [hx])) ?_ ((ih _ _).mpr ⟨?_, a2.2.1, ?_, ?_⟩)
      · intro htcp o ho
        have := a4 0 b rfl htcp o ho
        simpa [htcp] using this
      · intro k b' hk
        have := a1 (k + 1) b' (by simpa using hk)
        rwa [List.take_succ_cons, List.flatMap_cons, ← List.append_assoc] at this
      · intro x hx hh
        rw [List.mem_append] at hh
        rcases hh with hh | hh
        · exact a3 x (by rw [List.flatMap_cons]; exact List.mem_append_right _ hx) hh
        · exact a2.2.2 x hh x hx rfl
      · intro k b' hk htcp o ho
        have := a4 (k + 1) b' (by simpa using hk) htcp o ho
        rw [List.take_succ_cons] at this
        cases ht : b.tcp <;> simp [ht] at this ⊢ <;> exact this

theorem sound_iff (bs : List Branch) : FitAll ["root"] [] bs ↔ Sound bs := by
  rw [fitAll_iff]
  constructor
  · rintro ⟨a1, a2, a3, a4⟩
    refine ⟨fun k b hk => by simpa using a1 k b hk, ?_, fun k b hk h o ho => by simpa using a4 k b hk h o ho⟩
    rw [List.nodup_cons]
    exact ⟨fun h => a3 _ h (by simp), a2⟩
  · rintro ⟨a1, a2, a3⟩
    rw [List.nodup_cons] at a2
    refine ⟨fun k b hk => by simpa using a1 k b hk, a2.2, ?_, fun k b hk h o ho => by simpa using a3 k b hk h o ho⟩
    intro x hx hh
    rw [List.mem_singleton] at hh
    exact a2.1 (hh ▸ hx)

/-! ### C79 -/

/-- C79: a robot that can be put together, with limits for each joint and in order, opens; nothing else does. The limits
and the gravity are those configured. -/
theorem C79_opens {c : TreeConfig} {bs : List Branch} (h : Describes c bs) (hne : bs ≠ []) {mins maxs maxvels : List ℝ}
    (h1 : c.top "mins" = some (.list mins)) (h2 : c.top "maxs" = some (.list maxs))
    (h3 : c.top "maxvels" = some (.list maxvels)) {gx gy gz : ℝ} (h4 : c.top "gravity" = some (.list [gx, gy, gz]))
    {ik : String} (h5 : c.top "ik" = some (.str ik)) :
    ((∃ o, openSolver c = some (some o)) ↔ Sound bs ∧ mins.length = (bs.map (·.descs.length)).sum ∧
      maxs.length = (bs.map (·.descs.length)).sum ∧ maxvels.length = (bs.map (·.descs.length)).sum ∧
      (∀ (i : ℕ) a b, mins[i]? = some a → maxs[i]? = some b → a ≤ b) ∧ (ik = "nrjl" ∨ ik = "online")) ∧
    ∀ o, openSolver c = some (some o) → o.solver.gravity = ⟨gx, gy, gz⟩ ∧ o.ik = ik ∧
      o.limits = (mins.map (· * deg2rad), maxs.map (· * deg2rad), maxvels.map (· * deg2rad)) := by
  obtain ⟨s1, s2⟩ := addChains_spec bs h.limbs Members.new ["root"] new_has
  have hs1 : (addChains c Members.new c.chains).1 = true ↔ Sound bs := by
    rw [h.chains, s1]
    exact sound_iff bs
  have hgrav : (c.top.check "gravity" (.list [0, 0, -9.81])).asList = some [gx, gy, gz] := by
    simp [Group.check, h4, Val.asList]
  have hik : (c.top.check "ik" (.str "nrjl")).asString = ik := by
    simp [Group.check, h5, Val.asString]
  have hc : c.chains ≠ [] := by
    rw [h.chains]
    simpa using hne
  have hopen : openSolver c = match addChains c Members.new c.chains with
      | (false, _) => some none
      | (true, m) =>
        match jointLimits c m.tree.nJoints with
        | none => some none
        | some limits => if ik = "nrjl" ∨ ik = "online" then some (some ⟨⟨m.tree, m.tcps, ⟨gx, gy, gz⟩⟩, limits, ik⟩)
          else some none := by
    unfold openSolver openFrom
    rw [if_neg hc, hgrav, hik]
    simp only [Option.bind_eq_bind, Option.bind_some]
    cases addChains c Members.new c.chains with
    | mk ok m =>
      cases ok with
      | false => rfl
      | true =>
        simp only
        cases jointLimits c m.tree.nJoints with
        | none => rfl
        | some l =>
          simp only
          split_ifs <;> rfl
  rw [hopen]
  cases hadd : addChains c Members.new c.chains with
  | mk ok m =>
    rw [hadd] at hs1
    cases ok with
    | false =>
      simp only
      refine ⟨iff_of_false (by simp) ?_, by simp⟩
      rintro ⟨hs, -⟩
      have := hs1.mpr hs
      simp at this
    | true =>
      have hs := hs1.mp rfl
      rw [h.chains] at hadd
      have hn : m.tree.nJoints = (bs.map (·.descs.length)).sum := by
        rw [(s2 m hadd).2.1]
        simp [Members.new, Tree.empty]
      obtain ⟨l1, l2⟩ := limits_iff (n := (bs.map (·.descs.length)).sum) h1 h2 h3
      simp only
      rw [hn]
      cases hl : jointLimits c (bs.map (·.descs.length)).sum with
      | none =>
        simp only
        refine ⟨iff_of_false (by simp) ?_, by simp⟩
        rintro ⟨-, b1, b2, b3, b4, -⟩
        obtain ⟨l, e⟩ := l1.mpr ⟨b1, b2, b3, b4⟩
        rw [hl] at e
        cases e
      | some l =>
        simp only
        obtain ⟨b1, b2, b3, b4⟩ := l1.mp ⟨l, hl⟩
        by_cases hk : ik = "nrjl" ∨ ik = "online"
        · rw [if_pos hk]
          refine ⟨iff_of_true ⟨_, rfl⟩ ⟨hs, b1, b2, b3, b4, hk⟩, ?_⟩
          intro o e
          rw [← Option.some.inj (Option.some.inj e)]
          exact ⟨rfl, rfl, l2 l hl⟩
        · rw [if_neg hk]
          refine ⟨iff_of_false (by simp) (fun hh => hk hh.2.2.2.2.2), by simp⟩

/-- C79: forward kinematics is that of the robot described, for joints that turn: every limb starts where it is hooked,
joints are numbered in the order of the limbs, and the poses are those of the limbs marked as TCPs, in their order.
Slides are missing, see `C79_slide_counterexample`. -/
theorem C79_forward_kinematics_partial {c : TreeConfig} {bs : List Branch} (h : Describes c bs)
    (ht : ∀ b ∈ bs, ∀ d ∈ b.descs, d.Turns) {o : Opened} (ho : openSolver c = some (some o)) :
    o.solver.kinematics.nJoints = (bs.map (·.descs.length)).sum ∧
    o.solver.kinematics.tcps.endpoints = (bs.filter (·.tcp)).map (·.name) ∧
    ∀ q : List ℝ, q.length = (bs.map (·.descs.length)).sum → q ≠ [] → ∃ at_ : String → Frame, Placed bs q at_ ∧
      o.solver.kinematics.fwdKin q =
        some (some ((bs.filter (·.tcp)).flatMap fun b => frameToVector (at_ b.name))) := by
  obtain ⟨r, h1, h2⟩ := openSolver_inv ho
  obtain ⟨-, -, h3, -⟩ := open_inv h1 h2
  rw [h.chains] at h3
  obtain ⟨g1, g2, g3, g4, g5, g6⟩ := (addChains_spec bs h.limbs Members.new ["root"] new_has).2 _ h3
  simp only at g1 g2 g3 g4 g5 g6
  have hn : o.solver.tree.nJoints = (bs.map (·.descs.length)).sum := by
    rw [g2]
    simp [Members.new, Tree.empty]
  have he : o.solver.tcps.endpoints = (bs.filter (·.tcp)).map (·.name) := by
    rw [g5]
    simp [Members.new, Tcps.empty]
  refine ⟨hn, he, fun q hq hne => ?_⟩
  have hgood := g4 Tree.empty_good
  refine ⟨fun x => (Tree.fkLoop (q.map (· * deg2rad)) o.solver.tree.nodes x).getD 1, ?_, ?_⟩
  · have key := g6 ht q (by rw [hq]; simp [Members.new, Tree.empty])
    simp only [show Members.new.tree.nJoints = 0 from rfl, Nat.zero_add] at key
    refine ⟨?_, ?_, ?_⟩
    · show Option.getD _ _ = _
      rw [g3 _ "root" (Or.inl rfl)]
      rfl
    · intro k b hk i x hi hx
      obtain ⟨k1, k2, k3⟩ := key k b hk
      obtain ⟨F, hF⟩ := hgood (q.map (· * deg2rad)) b.hook k1
      show Option.getD _ _ = Option.getD _ _ * _ * _
      rw [k2 i x hi hx, hF]
      simp [mul_assoc]
    · intro k b hk
      obtain ⟨k1, k2, k3⟩ := key k b hk
      obtain ⟨F, hF⟩ := hgood (q.map (· * deg2rad)) b.hook k1
      show Option.getD _ _ = Option.getD _ _ * _ * _ * _
      rw [k3, hF]
      simp [mul_assoc]
  · have hq' : q.length = o.solver.tree.nJoints := by rw [hq, hn]
    have hpos : q.length ≠ 0 := by
      intro e
      exact hne (List.length_eq_zero_iff.mp e)
    unfold KdlTreeSolver.fwdKin
    show (KdlSolver.toRadians o.solver.tree.nJoints q).bind _ = _
    rw [KdlSolver.toRadians_some (by omega), Option.bind_some, ← hq', List.take_length]
    have := poses_all o.solver.kinematics (q.map (· * deg2rad))
      (fun x => (Tree.fkLoop (q.map (· * deg2rad)) o.solver.tree.nodes x).getD 1) o.solver.tcps.endpoints (fun e hmem => by
        show Tree.fk _ _ _ = _
        unfold Tree.fk
        rw [if_neg (by rw [List.length_map]; omega)]
        have : o.solver.tree.Has e := by
          rw [g1]
          rw [he] at hmem
          obtain ⟨b, hb, rfl⟩ := List.mem_map.mp hmem
          refine List.mem_append_right _ (List.mem_flatMap.mpr ⟨b, (List.mem_filter.mp hb).1, by simp [Branch.segments]⟩)
        obtain ⟨F, hF⟩ := hgood (q.map (· * deg2rad)) e this
        rw [hF]
        rfl)
    refine (congrArg some this).trans ?_
    rw [he, List.flatMap_map]

theorem addChain_some {c : TreeConfig} {m m' : Members} {name : String} (h : addChain c m name = (true, m')) :
    ∃ segs, chain name ((c.group name).getD nullGroup) = some segs := by
  unfold addChain at h
  cases hc : chain name ((c.group name).getD nullGroup) with
  | none => simp [hc] at h
  | some segs => exact ⟨segs, rfl⟩

theorem addChains_some {c : TreeConfig} : ∀ (names : List String) (m m' : Members), addChains c m names = (true, m') →
    ∀ name ∈ names, ∃ segs, chain name ((c.group name).getD nullGroup) = some segs := by
  intro names
  induction names with
  | nil => intro m m' _ name hn; cases hn
  | cons x names ih =>
    intro m m' h name hn
    rw [addChains] at h
    cases hadd : addChain c m x with
    | mk ok m1 =>
      rw [hadd] at h
      cases ok with
      | false => simp at h
      | true =>
        simp only at h
        rcases List.mem_cons.mp hn with rfl | hn
        · exact addChain_some hadd
        · exact ih m1 m' h name hn

/-- C79: a link of a limb that is not described at all is reported. -/
theorem C79_missing_link {c : TreeConfig} {name : String} (hname : name ∈ c.chains) {cc : Config}
    (hcc : c.group name = some cc) {n : ℕ} (hn : cc.top "numLinks" = some (.int n)) {i : ℕ} (hi : i < n)
    (h1 : cc.group ("link_" ++ toString i) = none) (h2 : cc.group ("xyzLink_" ++ toString i) = none) :
    ∀ o, openSolver c ≠ some (some o) := by
  intro o ho
  obtain ⟨r, g1, g2⟩ := openSolver_inv ho
  obtain ⟨-, -, g3, -⟩ := open_inv g1 g2
  obtain ⟨segs, hs⟩ := addChains_some _ _ _ g3 name hname
  rw [hcc, Option.getD_some] at hs
  have key : ∀ (m k : ℕ), k ≤ i → i < k + m → links name cc k m = none := by
    intro m
    induction m with
    | zero => intro k _ _; omega
    | succ m ih =>
      intro k hk hk'
      by_cases he : k = i
      · subst he
        simp only [links, link, h1, h2]
        rfl
      · have := ih (k + 1) (by omega) (by omega)
        cases hl : link name cc k with
        | none => simp [links, hl]
        | some l => simp [links, hl, this]
  unfold chain at hs
  simp only [Group.check, hn, Option.getD_some, Val.asInt, Int.toNat_natCast] at hs
  rw [key n 0 (by omega) (by omega)] at hs
  simp at hs

theorem addChain_has {c : TreeConfig} {m m' : Members} {name : String} (h : addChain c m name = (true, m')) :
    ¬ m.tree.Has (name ++ "_H0") ∧ m'.tree.Has (name ++ "_H0") ∧ ∀ x, m.tree.Has x → m'.tree.Has x := by
  obtain ⟨segs, hs⟩ := addChain_some h
  unfold addChain at h
  simp only [hs] at h
  have hfirst : ∃ l rest, segs = (name ++ "_H0", l) :: rest := by
    unfold chain at hs
    simp only at hs
    obtain ⟨ls, -, e⟩ := Option.bind_eq_some_iff.mp hs
    exact ⟨_, _, (Option.some.inj e).symm⟩
  obtain ⟨l, rest, hsegs⟩ := hfirst
  cases hadd : m.tree.addChain segs ((((c.group name).getD nullGroup).top.check "hook" (.str "root")).asString) with
  | mk ok tree =>
    rw [hadd] at h
    cases ok with
    | false => simp at h
    | true =>
      simp only at h
      have hiff := (Tree.addChain_iff segs m.tree _ (by rw [hsegs]; simp)).mp (by rw [hadd])
      obtain ⟨s1, -⟩ := Tree.addChain_spec segs _ _ _ hadd
      have e : m'.tree = tree := by
        cases ht : m.tcps.addChain (options name ((c.group name).getD nullGroup)) with
        | none => rw [ht] at h; simp at h
        | some tcps =>
          rw [ht] at h
          simp only [Prod.mk.injEq, true_and] at h
          rw [← h]
      rw [e]
      refine ⟨hiff.2.2 (name ++ "_H0", l) (by rw [hsegs]; simp), (s1 _).mpr (Or.inr (by rw [hsegs]; simp)),
        fun x hx => (s1 x).mpr (Or.inl hx)⟩

theorem addChains_has {c : TreeConfig} : ∀ (names : List String) (m m' : Members), addChains c m names = (true, m') →
    (∀ x, m.tree.Has x → m'.tree.Has x) ∧ ∀ name ∈ names, m'.tree.Has (name ++ "_H0") := by
  intro names
  induction names with
  | nil =>
    intro m m' h
    simp only [addChains, Prod.mk.injEq, true_and] at h
    subst h
    simp
  | cons x names ih =>
    intro m m' h
    rw [addChains] at h
    cases hadd : addChain c m x with
    | mk ok m1 =>
      rw [hadd] at h
      cases ok with
      | false => simp at h
      | true =>
        simp only at h
        obtain ⟨-, a2, a3⟩ := addChain_has hadd
        obtain ⟨b1, b2⟩ := ih m1 m' h
        refine ⟨fun y hy => b1 y (a3 y hy), ?_⟩
        intro name hn
        rcases List.mem_cons.mp hn with rfl | hn
        · exact b1 _ a2
        · exact b2 name hn

/-- C79 refuted: a device that has been open cannot be opened again after `close`: the chains of the
first time are still there and their names are taken. -/
theorem C79_reopen_counterexample {c : TreeConfig} {m : Members} {o : Opened}
    (h : openFrom Members.new c = some (m, some o)) :
    ∃ m', openFrom (close m) c = some (m', none) := by
  obtain ⟨h1, ⟨g, hg, -⟩, h2, h3, -⟩ := open_inv h rfl
  simp only at h3
  subst h3
  obtain ⟨-, hall⟩ := addChains_has _ _ _ h2
  unfold openFrom close
  rw [if_neg h1, hg]
  simp only [Option.bind_eq_bind, Option.bind_some]
  cases hc : c.chains with
  | nil => exact absurd hc h1
  | cons name names =>
    have hh := hall name (by rw [hc]; simp)
    rw [addChains]
    cases hadd : addChain c ⟨o.solver.tree, o.solver.tcps⟩ name with
    | mk ok m1 =>
      cases ok with
      | false => exact ⟨m1, rfl⟩
      | true => exact absurd hh (addChain_has hadd).1

/-! ### A robot, and what goes wrong -/

/-- A torso that turns, with two arms of two joints; the right one is hooked to the end of the torso, the left one to its
only link. Both hands are TCPs. -/
noncomputable def twoArms : TreeConfig where
  top := KdlConfig.group [("mins", .list [-90, -90, -90, -90, -90]), ("maxs", .list [90, 90, 90, 90, 90]),
    ("maxvels", .list [30, 30, 30, 30, 30]), ("gravity", .list [0, 0, -9.81]), ("ik", .str "nrjl")]
  chains := ["torso", "right", "left"]
  group k :=
    if k = "torso" then some ⟨KdlConfig.group [("numLinks", .int 1)],
      fun l => if l = "link_0" then some (KdlConfig.group [("D", .num 1)]) else none⟩
    else if k = "right" then some ⟨KdlConfig.group [("numLinks", .int 2), ("hook", .str "torso"), ("endpoint", .int 1)],
      fun l => if l = "link_0" then some (KdlConfig.group [("A", .num 1)])
        else if l = "xyzLink_1" then some (KdlConfig.group [("Type", .str "RotX"), ("y", .num 2)]) else none⟩
    else if k = "left" then some ⟨KdlConfig.group [("numLinks", .int 2), ("hook", .str "torso_link_0"),
        ("endpoint", .int 1)],
      fun l => if l = "link_0" then some (KdlConfig.group [("A", .num (-1))])
        else if l = "xyzLink_1" then some (KdlConfig.group [("Type", .str "InvRotX"), ("y", .num 2)]) else none⟩
    else none

/-- Its limbs. -/
noncomputable def twoArmsLimbs : List Branch :=
  [⟨"torso", "root", 1, [.dh 0 1 0 0], 1, false, none⟩,
    ⟨"right", "torso", 1, [.dh 0 0 1 0, .turn 0 false 0 2 0], 1, true, none⟩,
    ⟨"left", "torso_link_0", 1, [.dh 0 0 (-1) 0, .turn 0 true 0 2 0], 1, true, none⟩]

theorem twoArms_describes : Describes twoArms twoArmsLimbs := by
  refine ⟨rfl, ?_⟩
  intro b hb
  simp only [twoArmsLimbs, List.mem_cons, List.not_mem_nil, or_false] at hb
  rcases hb with rfl | rfl | rfl
  · refine ⟨_, rfl, ⟨rfl, Or.inr ⟨rfl, rfl⟩, ?_, Or.inr ⟨rfl, rfl⟩⟩, Or.inr ⟨rfl, rfl⟩, Or.inr ⟨rfl, rfl⟩, rfl⟩
    intro i d hd
    match i with
    | 0 =>
      rw [← Option.some.inj hd]
      exact .dh (g := KdlConfig.group [("D", .num 1)]) rfl (Or.inr ⟨rfl, rfl⟩) (Or.inl rfl) (Or.inr ⟨rfl, rfl⟩)
        (Or.inr ⟨rfl, rfl⟩)
    | i + 1 => simp at hd
  · refine ⟨_, rfl, ⟨rfl, Or.inr ⟨rfl, rfl⟩, ?_, Or.inr ⟨rfl, rfl⟩⟩, Or.inl rfl, Or.inl ⟨rfl, rfl⟩, rfl⟩
    intro i d hd
    match i with
    | 0 =>
      rw [← Option.some.inj hd]
      exact .dh (g := KdlConfig.group [("A", .num 1)]) rfl (Or.inr ⟨rfl, rfl⟩) (Or.inr ⟨rfl, rfl⟩) (Or.inl rfl)
        (Or.inr ⟨rfl, rfl⟩)
    | 1 =>
      rw [← Option.some.inj hd]
      exact .turn (g := KdlConfig.group [("Type", .str "RotX"), ("y", .num 2)]) rfl rfl rfl (Or.inr ⟨rfl, rfl⟩)
        (Or.inl rfl) (Or.inr ⟨rfl, rfl⟩)
    | i + 2 => simp at hd
  · refine ⟨_, rfl, ⟨rfl, Or.inr ⟨rfl, rfl⟩, ?_, Or.inr ⟨rfl, rfl⟩⟩, Or.inl rfl, Or.inl ⟨rfl, rfl⟩, rfl⟩
    intro i d hd
    match i with
    | 0 =>
      rw [← Option.some.inj hd]
      exact .dh (g := KdlConfig.group [("A", .num (-1))]) rfl (Or.inr ⟨rfl, rfl⟩) (Or.inr ⟨rfl, rfl⟩) (Or.inl rfl)
        (Or.inr ⟨rfl, rfl⟩)
    | 1 =>
      rw [← Option.some.inj hd]
      exact .turn (g := KdlConfig.group [("Type", .str "InvRotX"), ("y", .num 2)]) rfl rfl rfl (Or.inr ⟨rfl, rfl⟩)
        (Or.inl rfl) (Or.inr ⟨rfl, rfl⟩)
    | i + 2 => simp at hd

theorem twoArms_segments : twoArmsLimbs.map (·.segments) = [["torso_H0", "torso_link_0", "torso"],
    ["right_H0", "right_link_0", "right_xyzLink_1", "right"], ["left_H0", "left_link_0", "left_xyzLink_1", "left"]] := by
  rfl

theorem twoArms_sound : Sound twoArmsLimbs := by
  have h := twoArms_segments
  have hf : ∀ k, (twoArmsLimbs.take k).flatMap (·.segments) = ((twoArmsLimbs.map (·.segments)).take k).flatten := by
    intro k
    rw [List.flatMap_def, List.map_take]
  constructor
  · intro k b hk
    rw [hf, h]
    match k with
    | 0 => rw [← Option.some.inj hk]; simp
    | 1 => rw [← Option.some.inj hk]; simp
    | 2 => rw [← Option.some.inj hk]; simp
    | k + 3 => simp [twoArmsLimbs] at hk
  · rw [List.flatMap_def, h]
    decide
  · intro k b hk _ o ho
    match k with
    | 0 => rw [← Option.some.inj hk] at ho; cases ho
    | 1 => rw [← Option.some.inj hk] at ho; cases ho
    | 2 => rw [← Option.some.inj hk] at ho; cases ho
    | k + 3 => simp [twoArmsLimbs] at hk

/-- It opens, and has five joints that turn. -/
theorem twoArms_opens : ∃ o, openSolver twoArms = some (some o) := by
  refine (C79_opens twoArms_describes (by simp [twoArmsLimbs]) (mins := [-90, -90, -90, -90, -90])
    (maxs := [90, 90, 90, 90, 90]) (maxvels := [30, 30, 30, 30, 30]) rfl rfl rfl (gx := 0) (gy := 0) (gz := -9.81) rfl
    (ik := "nrjl") rfl).1.mpr ⟨twoArms_sound, rfl, rfl, rfl, ?_, Or.inl rfl⟩
  intro i a b ha hb
  match i with
  | 0 => simp at ha hb; linarith
  | 1 => simp at ha hb; linarith
  | 2 => simp at ha hb; linarith
  | 3 => simp at ha hb; linarith
  | 4 => simp at ha hb; linarith
  | i + 5 => simp at ha

example : ∀ b ∈ twoArmsLimbs, ∀ d ∈ b.descs, d.Turns := by
  intro b hb d hd
  simp only [twoArmsLimbs, List.mem_cons, List.not_mem_nil, or_false] at hb
  rcases hb with rfl | rfl | rfl
  · simp only [List.mem_cons, List.not_mem_nil, or_false] at hd
    subst hd; trivial
  · simp only [List.mem_cons, List.not_mem_nil, or_false] at hd
    rcases hd with rfl | rfl <;> trivial
  · simp only [List.mem_cons, List.not_mem_nil, or_false] at hd
    rcases hd with rfl | rfl <;> trivial

/-- The robot again, with an arm listed whose section has another name. -/
noncomputable def misnamed : TreeConfig := { twoArms with chains := ["torso", "right", "left", "tail"] }

theorem addChains_misnamed : ∀ (names : List String) (m : Members), addChains misnamed m names = addChains twoArms m names
  | [], _ => rfl
  | x :: names, m => by
    rw [addChains, addChains]
    rw [show addChain misnamed m x = addChain twoArms m x from rfl]
    cases addChain twoArms m x with
    | mk ok m1 =>
      cases ok with
      | false => rfl
      | true => exact addChains_misnamed names m1

theorem addChains_append (c : TreeConfig) (b : List String) : ∀ (a : List String) (m m' : Members),
    addChains c m a = (true, m') → addChains c m (a ++ b) = addChains c m' b := by
  intro a
  induction a with
  | nil =>
    intro m m' h
    simp only [addChains, Prod.mk.injEq, true_and] at h
    rw [h]
    rfl
  | cons x a ih =>
    intro m m' h
    rw [List.cons_append, addChains]
    rw [addChains] at h
    cases hadd : addChain c m x with
    | mk ok m1 =>
      rw [hadd] at h
      cases ok with
      | false => simp at h
      | true => exact ih m1 m' h

/-- C79 refuted: a limb without a section is not reported; it is taken for a limb without links at the root. -/
theorem C79_missing_section_counterexample : "tail" ∈ misnamed.chains ∧ misnamed.group "tail" = none ∧
    ∃ o, openSolver misnamed = some (some o) ∧ ∀ q : List ℝ, q.length = 5 → o.solver.tree.fk q "tail" = some 1 := by
  refine ⟨by simp [misnamed], rfl, ?_⟩
  obtain ⟨o, ho⟩ := twoArms_opens
  obtain ⟨r, h1, h2⟩ := openSolver_inv ho
  obtain ⟨-, ⟨g, hg, hg'⟩, h3, -, h4, -⟩ := open_inv h1 h2
  have hd := h3
  rw [twoArms_describes.chains] at hd
  obtain ⟨a1, a2, a3, a4, a5, -⟩ :=
    (addChains_spec twoArmsLimbs twoArms_describes.limbs Members.new ["root"] new_has).2 _ hd
  rw [List.flatMap_def, twoArms_segments] at a1
  simp only at a1 a2 a3 a4
  have hn : o.solver.tree.nJoints = 5 := a2
  have hseg : chain "tail" nullGroup = some [("tail_H0", fixedLink 1), ("tail", fixedLink 1)] := rfl
  have htree := (Tree.addChain_iff [("tail_H0", fixedLink 1), ("tail", fixedLink 1)] o.solver.tree "root" (by simp)).mpr
    ⟨Or.inl rfl, by decide, fun x hx hh => by
      rw [a1] at hh
      simp only [List.mem_cons, List.not_mem_nil, or_false] at hx
      rcases hx with rfl | rfl <;> simp at hh⟩
  obtain ⟨t', ht'⟩ := Tree.addChain_true htree
  obtain ⟨s1, s2, s3, s4, s5⟩ := Tree.addChain_spec _ _ _ _ ht'
  have hn' : t'.nJoints = 5 := by
    rw [s2, hn]
    simp only [List.map_cons, List.map_nil, Tree.moving_cons, if_neg (fixed_still _), Tree.moving_nil]
  have hadd : addChains misnamed Members.new misnamed.chains = (true, ⟨t', o.solver.tcps⟩) := by
    rw [addChains_misnamed, show misnamed.chains = twoArms.chains ++ ["tail"] from rfl, addChains_append _ _ _ _ _ h3,
      addChains]
    have : addChain twoArms ⟨o.solver.tree, o.solver.tcps⟩ "tail" = (true, ⟨t', o.solver.tcps⟩) := by
      unfold addChain
      have e1 : (twoArms.group "tail").getD nullGroup = nullGroup := rfl
      have e2 : (nullGroup.top.check "hook" (.str "root")).asString = "root" := rfl
      have e3 : o.solver.tcps.addChain (options "tail" nullGroup) = some o.solver.tcps := rfl
      simp only [e1, hseg, e2, ht', e3]
    rw [this]
    rfl
  refine ⟨⟨⟨t', o.solver.tcps, ⟨get g 0, get g 1, get g 2⟩⟩, o.limits, "nrjl"⟩, ?_, ?_⟩
  · have hg2 : (misnamed.top.check "gravity" (.list [0, 0, -9.81])).asList = some g := hg
    have hl : jointLimits misnamed t'.nJoints = some o.limits := by
      rw [hn', ← hn]
      exact h4
    have hik : (misnamed.top.check "ik" (.str "nrjl")).asString = "nrjl" := rfl
    unfold openSolver openFrom
    rw [if_neg (by simp [misnamed]), hg2]
    simp only [Option.bind_eq_bind, Option.bind_some, hadd, hl, hik, true_or, if_true]
    rfl
  · intro q hq
    unfold Tree.fk
    show ite _ _ _ = _
    rw [if_neg (by simp only [hn']; omega)]
    have := s4 q 1 ("tail", fixedLink 1) rfl
    simp only at this
    show Tree.fkLoop q t'.nodes "tail" = _
    rw [this, a3 q "root" (Or.inl rfl)]
    have e : Members.new.tree.nodes = [] := rfl
    rw [e]
    simp [Tree.fkLoop, Tree.poseOf, fixed_still, fixed_pose]

/-- A cart on a rail. -/
noncomputable def rail : TreeConfig where
  top := KdlConfig.group [("mins", .list [0]), ("maxs", .list [5]), ("maxvels", .list [1]), ("gravity", .list [0, 0, -9.81]),
    ("ik", .str "online")]
  chains := ["cart"]
  group k :=
    if k = "cart" then some ⟨KdlConfig.group [("numLinks", .int 1), ("endpoint", .int 1)],
      fun l => if l = "xyzLink_0" then some (KdlConfig.group [("Type", .str "TransX")]) else none⟩
    else none

theorem rail_describes : Describes rail [⟨"cart", "root", 1, [.slide 0 false 0 0 0], 1, true, none⟩] := by
  refine ⟨rfl, ?_⟩
  intro b hb
  rw [List.mem_singleton] at hb
  subst hb
  refine ⟨_, rfl, ⟨rfl, Or.inr ⟨rfl, rfl⟩, ?_, Or.inr ⟨rfl, rfl⟩⟩, Or.inr ⟨rfl, rfl⟩, Or.inl ⟨rfl, rfl⟩, rfl⟩
  intro i d hd
  match i with
  | 0 =>
    rw [← Option.some.inj hd]
    exact .slide (g := KdlConfig.group [("Type", .str "TransX")]) rfl rfl rfl (Or.inr ⟨rfl, rfl⟩) (Or.inr ⟨rfl, rfl⟩)
      (Or.inr ⟨rfl, rfl⟩)
  | i + 1 => simp at hd

/-- C79 refuted for linear joints, whose documented units are meters: with the cart at `x` meters, its pose is that of
`x * π / 180` meters. -/
theorem C79_slide_counterexample (x : ℝ) : ∃ o, openSolver rail = some (some o) ∧
    o.solver.kinematics.fwdKin [x] = some (some [x * deg2rad, 0, 0, 0, 0, 0]) := by
  have hs : Sound [⟨"cart", "root", 1, [.slide 0 false 0 0 0], 1, true, none⟩] := by
    refine ⟨?_, ?_, ?_⟩
    · intro k b hk
      match k with
      | 0 => rw [← Option.some.inj hk]; simp
      | k + 1 => simp at hk
    · show ["root", "cart_H0", "cart_xyzLink_0", "cart"].Nodup
      decide
    · intro k b hk _ o ho
      match k with
      | 0 => rw [← Option.some.inj hk] at ho; cases ho
      | k + 1 => simp at hk
  obtain ⟨o, ho⟩ := (C79_opens rail_describes (by simp) (mins := [0]) (maxs := [5]) (maxvels := [1]) rfl rfl rfl
    (gx := 0) (gy := 0) (gz := -9.81) rfl (ik := "online") rfl).1.mpr ⟨hs, rfl, rfl, rfl, fun i a b ha hb => by
      match i with
      | 0 => simp at ha hb; linarith
      | i + 1 => simp at ha, Or.inr rfl⟩
  refine ⟨o, ho, ?_⟩
  obtain ⟨r, h1, h2⟩ := openSolver_inv ho
  obtain ⟨-, -, h3, -⟩ := open_inv h1 h2
  have h4 : addChains rail Members.new rail.chains = (true, ⟨⟨[⟨"cart", "cart_xyzLink_0", fixedLink 1, 0⟩,
      ⟨"cart_xyzLink_0", "cart_H0", ⟨Segment.make (joint .transX 1) (Frame.trans ⟨0, 0, 0⟩), Inertia.zero⟩, 0⟩,
      ⟨"cart_H0", "root", fixedLink 1, 0⟩], 1⟩, ⟨["cart"], fun _ => none⟩⟩) := rfl
  rw [h4] at h3
  simp only [Prod.mk.injEq, true_and, Members.mk.injEq] at h3
  have hk : o.solver.kinematics = ⟨o.solver.tcps, o.solver.tree.nJoints, o.solver.tree.fk⟩ := rfl
  rw [hk, ← h3.1, ← h3.2]
  have hpose : (Segment.make (joint .transX 1) (Frame.trans ⟨0, 0, 0⟩)).pose (x * deg2rad) =
      Frame.trans ⟨x * deg2rad, 0, 0⟩ := by
    rw [make_pose (by simp [joint, Joint.pose]; ext <;> simp)]
    ext <;> simp [joint, Joint.pose]
  have hfk : Tree.fk ⟨[⟨"cart", "cart_xyzLink_0", fixedLink 1, 0⟩,
      ⟨"cart_xyzLink_0", "cart_H0", ⟨Segment.make (joint .transX 1) (Frame.trans ⟨0, 0, 0⟩), Inertia.zero⟩, 0⟩,
      ⟨"cart_H0", "root", fixedLink 1, 0⟩], 1⟩ [x * deg2rad] "cart" = some (Frame.trans ⟨x * deg2rad, 0, 0⟩) := by
    unfold Tree.fk
    rw [if_neg (by simp)]
    simp only [Tree.fkLoop, reduceIte, String.reduceEq, fixed_pose, Option.map_some, mul_one]
    have : Tree.jointValue ⟨"cart_xyzLink_0", "cart_H0", ⟨Segment.make (joint .transX 1) (Frame.trans ⟨0, 0, 0⟩),
        Inertia.zero⟩, 0⟩ [x * deg2rad] = x * deg2rad := rfl
    rw [this, hpose, one_mul]
  unfold KdlTreeSolver.fwdKin
  show (KdlSolver.toRadians 1 [x]).bind _ = _
  rw [KdlSolver.toRadians_some (by simp), Option.bind_some]
  refine (congrArg some (poses_all ⟨⟨["cart"], fun _ => none⟩, 1, Tree.fk ⟨[⟨"cart", "cart_xyzLink_0", fixedLink 1, 0⟩,
      ⟨"cart_xyzLink_0", "cart_H0", ⟨Segment.make (joint .transX 1) (Frame.trans ⟨0, 0, 0⟩), Inertia.zero⟩, 0⟩,
      ⟨"cart_H0", "root", fixedLink 1, 0⟩], 1⟩⟩ [x * deg2rad] (fun _ => Frame.trans ⟨x * deg2rad, 0, 0⟩) ["cart"]
      fun e he => by
        rw [List.mem_singleton] at he
        subst he
        exact hfk)).trans ?_
  simp [frameToVector, getRot_one]

end KdlTreeConfig

end KD
