import Verif.Props.TreeDynamics

/-!
# C80: the bodies and the TCPs are those of the configuration
-/

namespace KD

open Vec3 KdlVectorConverter KdlConfig

namespace KdlTreeConfig

/-! ### Helpers -/

theorem chain_nodes : ∀ (segs : List (String × Link)) (t t' : Tree) (hook : String), t.addChain segs hook = (true, t') →
    (t.Built → t'.Built) ∧ ∀ n ∈ t'.nodes, n ∈ t.nodes ∨ (n.name, n.link) ∈ segs := by
  intro segs
  induction segs with
  | nil =>
    intro t t' hook h
    simp only [Tree.addChain, Prod.mk.injEq, true_and] at h
    subst h
    exact ⟨id, fun n hn => Or.inl hn⟩
  | cons s segs ih =>
    intro t t' hook h
    obtain ⟨name, l⟩ := s
    rw [Tree.addChain] at h
    cases ha : t.addSegment name l hook with
    | none => rw [ha] at h; simp at h
    | some t1 =>
      rw [ha] at h
      simp only at h
      obtain ⟨-, -, -, -, -, -, -, k, hk, -⟩ := Tree.addSegment_spec ha
      obtain ⟨g1, g2⟩ := ih t1 t' name h
      refine ⟨fun hb => g1 (.add hb ha), fun n hn => ?_⟩
      rcases g2 n hn with hn | hn
      · rw [hk] at hn
        rcases List.mem_cons.mp hn with rfl | hn
        · exact Or.inr (by simp)
        · exact Or.inl hn
      · exact Or.inr (by simp [hn])

/-- One turn of the loop, as far as segments and TCPs are concerned. -/
theorem addChain_nodes {c : TreeConfig} {m m' : Members} {name : String} (h : addChain c m name = (true, m')) :
    (m.tree.Built → m'.tree.Built) ∧
      (∃ segs, chain name ((c.group name).getD nullGroup) = some segs ∧
        ∀ n ∈ m'.tree.nodes, n ∈ m.tree.nodes ∨ (n.name, n.link) ∈ segs) ∧
      m.tcps.addChain (options name ((c.group name).getD nullGroup)) = some m'.tcps := by
  unfold addChain at h
  cases hc : chain name ((c.group name).getD nullGroup) with
  | none => simp only [hc] at h; simp at h
  | some segs =>
    simp only [hc] at h
    cases ht : m.tree.addChain segs ((((c.group name).getD nullGroup).top.check "hook" (.str "root")).asString) with
    | mk ok tree =>
      rw [ht] at h
      cases ok with
      | false => simp at h
      | true =>
        simp only at h
        cases hp : m.tcps.addChain (options name ((c.group name).getD nullGroup)) with
        | none => rw [hp] at h; simp at h
        | some tcps =>
          rw [hp] at h
          simp only [Prod.mk.injEq, true_and] at h
          subst h
          obtain ⟨g1, g2⟩ := chain_nodes _ _ _ _ ht
          exact ⟨g1, ⟨segs, rfl, g2⟩, rfl⟩

theorem addChains_nodes {c : TreeConfig} : ∀ (names : List String) (m m' : Members), addChains c m names = (true, m') →
    (m.tree.Built → m'.tree.Built) ∧ ∀ n ∈ m'.tree.nodes, n ∈ m.tree.nodes ∨
      ∃ name ∈ names, ∃ segs, chain name ((c.group name).getD nullGroup) = some segs ∧ (n.name, n.link) ∈ segs := by
  intro names
  induction names with
  | nil =>
    intro m m' h
    simp only [addChains, Prod.mk.injEq, true_and] at h
    subst h
    exact ⟨id, fun n hn => Or.inl hn⟩
  | cons name names ih =>
    intro m m' h
    rw [addChains] at h
    cases ha : addChain c m name with
    | mk ok m1 =>
      rw [ha] at h
      cases ok with
      | false => simp at h
      | true =>
        simp only at h
        obtain ⟨g1, ⟨segs, g2, g3⟩, -⟩ := addChain_nodes ha
        obtain ⟨k1, k2⟩ := ih m1 m' h
        refine ⟨fun hb => k1 (g1 hb), fun n hn => ?_⟩
        rcases k2 n hn with hn | ⟨nm, h1, h2⟩
        · rcases g3 n hn with hn | hn
          · exact Or.inl hn
          · exact Or.inr ⟨name, by simp, segs, g2, hn⟩
        · exact Or.inr ⟨nm, by simp [h1], h2⟩

theorem segments_base (b : Branch) : b.segments[0]? = some (b.name ++ "_H0") := rfl

theorem segments_link {b : Branch} {i : ℕ} {d : Desc} (h : b.descs[i]? = some d) :
    b.segments[i + 1]? = some (linkName b.name i d) := by
  have hi := (List.getElem?_eq_some_iff.mp h).1
  unfold Branch.segments
  rw [List.cons_append, List.getElem?_cons_succ, List.getElem?_append_left (by simpa using hi), List.getElem?_mapIdx, h]
  rfl

theorem segments_tip (b : Branch) : b.segments[b.descs.length + 1]? = some b.name := by
  unfold Branch.segments
  rw [List.cons_append, List.getElem?_cons_succ, List.getElem?_append_right (by simp)]
  simp

/-- A name tells the limb and the place in it. -/
theorem Sound.unique {bs : List Branch} (h : Sound bs) {b b' : Branch} (hb : b ∈ bs) (hb' : b' ∈ bs) {i j : ℕ} {x : String}
    (hi : b.segments[i]? = some x) (hj : b'.segments[j]? = some x) : b = b' ∧ i = j := by
  have hn := (List.nodup_cons.mp h.names).2
  rw [List.nodup_flatMap] at hn
  obtain ⟨h1, h2⟩ := hn
  have e : b = b' := by
    by_contra hne
    have hsym : Std.Symm (Function.onFun List.Disjoint fun x : Branch => x.segments) := ⟨fun _ _ h => List.Disjoint.symm h⟩
    have := h2.forall hb hb' hne
    exact this (List.mem_of_getElem? hi) (List.mem_of_getElem? hj)
  subst e
  refine ⟨rfl, ?_⟩
  exact List.getElem?_inj (List.getElem?_eq_some_iff.mp hi).1 (h1 b hb) |>.mp (by rw [hi, hj])

theorem links_get (c : Config) (n : ℕ) : ∀ (i : ℕ) (ls : List Link), (∀ k < n, ∃ l, KdlConfig.link c (i + k) = some [l]) →
    KdlConfig.links c i n = some ls → ∀ (k : ℕ) (l : Link), ls[k]? = some l → KdlConfig.link c (i + k) = some [l] := by
  induction n with
  | zero =>
    intro i ls _ h k l hk
    simp only [KdlConfig.links, Option.some.injEq] at h
    subst h
    simp at hk
  | succ n ih =>
    intro i ls hall h k l hk
    obtain ⟨l0, h0⟩ := hall 0 (by omega)
    rw [Nat.add_zero] at h0
    simp only [KdlConfig.links, h0, Option.bind_eq_bind, Option.bind_some, Option.pure_def] at h
    obtain ⟨ls', e2, e3⟩ := Option.bind_eq_some_iff.mp h
    rw [← Option.some.inj e3] at hk
    cases k with
    | zero =>
      simp only [List.singleton_append, List.getElem?_cons_zero, Option.some.injEq] at hk
      rw [Nat.add_zero, h0, hk]
    | succ k =>
      simp only [List.singleton_append, List.getElem?_cons_succ] at hk
      have := ih (i + 1) ls' (fun k hk => by
        obtain ⟨l, hl⟩ := hall (k + 1) (by omega)
        exact ⟨l, by rwa [show i + 1 + k = i + (k + 1) by omega]⟩) e2 k l hk
      rwa [show i + (k + 1) = i + 1 + k by omega]

/-- A segment of the tree is one of a limb. -/
theorem node_of_limb {c : TreeConfig} {bs : List Branch} (h : Describes c bs) {o : Opened}
    (ho : openSolver c = some (some o)) : o.solver.tree.Built ∧ Sound bs ∧
      (∀ x, o.solver.tree.Has x ↔ x ∈ "root" :: bs.flatMap (·.segments)) ∧
      o.solver.tree.nJoints = (bs.map (·.descs.length)).sum ∧
      ∀ n ∈ o.solver.tree.nodes, ∃ b ∈ bs, ∃ cc, c.group b.name = some cc ∧
        ((n.name = b.name ++ "_H0" ∧ n.link = fixedLink b.base) ∨ (n.name = b.name ∧ n.link = fixedLink b.tip) ∨
        ∃ i d, b.descs[i]? = some d ∧ n.name = linkName b.name i d ∧ Declares cc i d ∧ KdlConfig.link cc i = some [n.link]) := by
  obtain ⟨r, h1, h2⟩ := openSolver_inv ho
  obtain ⟨-, -, h3, -⟩ := open_inv h1 h2
  rw [h.chains] at h3
  obtain ⟨s1, s2⟩ := addChains_spec bs h.limbs Members.new ["root"] new_has
  obtain ⟨g1, g2, -⟩ := s2 _ h3
  obtain ⟨k1, k2⟩ := addChains_nodes _ _ _ h3
  rw [h3] at s1
  refine ⟨k1 .empty, (sound_iff bs).mp (s1.mp rfl), g1, by rw [g2]; simp [Members.new, Tree.empty], fun n hn => ?_⟩
  rcases k2 n hn with hn | ⟨name, hname, segs, hc, hm⟩
  · simp [Members.new, Tree.empty] at hn
  · obtain ⟨b, hb, rfl⟩ := List.mem_map.mp hname
    obtain ⟨cc, d1, d2, -⟩ := h.limbs b hb
    refine ⟨b, hb, cc, d1, ?_⟩
    rw [d1] at hc
    obtain ⟨ls, e1, e2, e3, -⟩ := chain_of_declared d2
    rw [Option.getD_some, e1] at hc
    rw [← Option.some.inj hc] at hm
    rw [List.cons_append, List.mem_cons, List.mem_append, List.mem_singleton] at hm
    rcases hm with hm | hm | hm
    · exact Or.inl ⟨(Prod.mk.inj hm).1, (Prod.mk.inj hm).2⟩
    · right; right
      obtain ⟨i, hi, he⟩ := List.getElem_of_mem hm
      have hlen : ls.length = b.descs.length := by
        have := congrArg List.length e2
        simpa using this
      have hd : b.descs[i]? = some (b.descs[i]'(by omega)) := List.getElem?_eq_getElem (by omega)
      refine ⟨i, _, hd, ?_, d2.links i _ hd, ?_⟩
      · have := congrArg (·[i]?) e2
        simp only [List.getElem?_map, List.getElem?_mapIdx, hd, List.getElem?_eq_getElem hi, he, Option.map_some,
          Option.some.injEq] at this
        exact this
      · have := links_get cc b.descs.length 0 (ls.map (·.2)) (fun k hk => by
          obtain ⟨l, e, -⟩ := KdlConfig.link_of_declared (d2.links k _ (List.getElem?_eq_getElem hk))
          exact ⟨l, by rwa [Nat.zero_add]⟩) e3 i n.link (by
          simp [List.getElem?_eq_getElem hi, he])
        rwa [Nat.zero_add] at this
    · exact Or.inr (Or.inl ⟨(Prod.mk.inj hm).1, (Prod.mk.inj hm).2⟩)

theorem Declared.limb_mem {bs : List Branch} {b : Branch} {i : ℕ} {x : String} (hb : b ∈ bs) (hx : b.segments[i]? = some x) :
    x ∈ bs.flatMap (·.segments) :=
  List.mem_flatMap.mpr ⟨b, hb, List.mem_of_getElem? hx⟩

/-! ### C80 -/

/-- C80: the segments have the bodies that the configuration gives to the links (`solid`, by limb and place), and no
mass elsewhere. -/
theorem C80_bodies {c : TreeConfig} {bs : List Branch} (h : Describes c bs)
    (hr : ∀ b ∈ bs, b.base.IsRigid ∧ b.tip.IsRigid) (solid : String → ℕ → Option Solid)
    (hw : ∀ b ∈ bs, ∀ cc, c.group b.name = some cc → ∀ i < b.descs.length, Weighs cc i (solid b.name i))
    (hp : ∀ x i s, solid x i = some s → s.Possible) (hj : (bs.map (·.descs.length)).sum ≠ 0) {o : Opened}
    (ho : openSolver c = some (some o)) :
    ∃ bodies : String → List MassPoint, o.solver.Describes bodies ∧
      ∀ b ∈ bs, bodies (b.name ++ "_H0") = [] ∧ bodies b.name = [] ∧ ∀ (i : ℕ) (d : Desc), b.descs[i]? = some d →
        (solid b.name i = none → bodies (linkName b.name i d) = []) ∧
        ∀ s, solid b.name i = some s → s.IsMadeOf (bodies (linkName b.name i d)) := by
  obtain ⟨h1, h2, h3, h4, h5⟩ := node_of_limb h ho
  have key : ∀ x, ∃ pts : List MassPoint, (∀ n ∈ o.solver.tree.nodes, n.name = x → n.link.inertia.Of pts) ∧
      ∀ b ∈ bs, (b.name ++ "_H0" = x → pts = []) ∧ (b.name = x → pts = []) ∧ ∀ (i : ℕ) (d : Desc), b.descs[i]? = some d →
        linkName b.name i d = x → (solid b.name i = none → pts = []) ∧ ∀ s, solid b.name i = some s → s.IsMadeOf pts := by
    intro x
    by_cases hx : ∃ n ∈ o.solver.tree.nodes, n.name = x
    · obtain ⟨n, hn, rfl⟩ := hx
      have hu : ∀ n' ∈ o.solver.tree.nodes, n'.name = n.name → n' = n := fun n' hn' e =>
        List.inj_on_of_nodup_map h1.proper.names hn' hn e
      obtain ⟨b, hb, cc, hcc, hcase⟩ := h5 n hn
      rcases hcase with ⟨e1, e2⟩ | ⟨e1, e2⟩ | ⟨i, d, e1, e2, e3, e4⟩
      · have hs : b.segments[0]? = some n.name := by rw [e1]; exact segments_base b
        refine ⟨[], fun n' hn' e => ?_, fun b' hb' => ⟨fun _ => rfl, fun _ => rfl, fun i' d' hd' e => ?_⟩⟩
        · rw [hu n' hn' e, e2]; exact zero_of
        · have := h2.unique hb hb' hs (by rw [← e]; exact segments_link hd')
          omega
      · have hs : b.segments[b.descs.length + 1]? = some n.name := by rw [e1]; exact segments_tip b
        refine ⟨[], fun n' hn' e => ?_, fun b' hb' => ⟨fun _ => rfl, fun _ => rfl, fun i' d' hd' e => ?_⟩⟩
        · rw [hu n' hn' e, e2]; exact zero_of
        · obtain ⟨rfl, q2⟩ := h2.unique hb hb' hs (by rw [← e]; exact segments_link hd')
          have := (List.getElem?_eq_some_iff.mp hd').1
          omega
      · have hs : b.segments[i + 1]? = some n.name := by rw [e2]; exact segments_link e1
        have hi := (List.getElem?_eq_some_iff.mp e1).1
        obtain ⟨pts, p1, p2, p3⟩ := link_of_weighs e3 (hw b hb cc hcc i hi) (fun s hs => hp _ _ s hs) e4
        refine ⟨pts, fun n' hn' e => ?_, fun b' hb' => ⟨fun e => ?_, fun e => ?_, fun i' d' hd' e => ?_⟩⟩
        · rw [hu n' hn' e]; exact p1
        · have := h2.unique hb hb' hs (by rw [← e]; exact segments_base b')
          omega
        · obtain ⟨rfl, q2⟩ := h2.unique hb hb' hs (by rw [← e]; exact segments_tip b')
          omega
        · obtain ⟨rfl, q2⟩ := h2.unique hb hb' hs (by rw [← e]; exact segments_link hd')
          obtain rfl : i = i' := by omega
          exact ⟨p2, p3⟩
    · have habs : ∀ b ∈ bs, ∀ i : ℕ, b.segments[i]? ≠ some x := by
        intro b hb i hi
        rcases (h3 x).mpr (List.mem_cons_of_mem _ (Declared.limb_mem hb hi)) with e | e
        · exact (List.nodup_cons.mp h2.names).1 (e ▸ Declared.limb_mem hb hi)
        · exact hx e
      refine ⟨[], fun n hn e => absurd ⟨n, hn, e⟩ hx, fun b hb => ⟨fun _ => rfl, fun _ => rfl, fun i d hd e => ?_⟩⟩
      exact absurd (by rw [← e]; exact segments_link hd) (habs b hb (i + 1))
  choose bodies hbod using key
  refine ⟨bodies, ⟨h1, by rw [h4]; exact hj, ?_, fun n hn => (hbod n.name).1 n hn rfl⟩, fun b hb => ?_⟩
  · intro n hn
    obtain ⟨b, hb, cc, hcc, hcase⟩ := h5 n hn
    rcases hcase with ⟨-, e2⟩ | ⟨-, e2⟩ | ⟨i, d, -, -, -, e4⟩
    · rw [e2]; exact fixed_wf (hr b hb).1
    · rw [e2]; exact fixed_wf (hr b hb).2
    · exact link_wf e4 _ (by simp)
  · exact ⟨((hbod _).2 b hb).1 rfl, ((hbod _).2 b hb).2.1 rfl, fun i d hd => ((hbod _).2 b hb).2.2 i d hd rfl⟩

/-- C80: what is said about segments is said about places of the robot described (see C79), for joints that turn. -/
theorem C80_places {c : TreeConfig} {bs : List Branch} (h : Describes c bs)
    (ht : ∀ b ∈ bs, ∀ d ∈ b.descs, d.Turns) {o : Opened} (ho : openSolver c = some (some o)) (q : List ℝ)
    (hq : q.length = (bs.map (·.descs.length)).sum) (hne : q ≠ []) :
    ∃ at_ : String → Frame, Placed bs q at_ ∧ ∀ b ∈ bs, ∀ x ∈ b.segments, ∀ r,
      x ∈ o.solver.segments ∧ o.solver.placeAt (q.map (· * deg2rad)) x r = (at_ x).act r := by
  obtain ⟨r, h1, h2⟩ := openSolver_inv ho
  obtain ⟨-, -, h3, -⟩ := open_inv h1 h2
  rw [h.chains] at h3
  obtain ⟨s1, s2⟩ := addChains_spec bs h.limbs Members.new ["root"] new_has
  rw [h3] at s1
  have hsound := (sound_iff bs).mp (s1.mp rfl)
  obtain ⟨g1, g2, g3, g4, g5, g6⟩ := s2 _ h3
  simp only at g1 g2 g3 g4 g5 g6
  have hn : o.solver.tree.nJoints = (bs.map (·.descs.length)).sum := by
    rw [g2]
    simp [Members.new, Tree.empty]
  have hgood := g4 Tree.empty_good
  refine ⟨fun x => (Tree.fkLoop (q.map (· * deg2rad)) o.solver.tree.nodes x).getD 1, ?_, ?_⟩
  · have key := g6 ht q (by rw [hq]; simp [Members.new, Tree.empty])
    simp only [show Members.new.tree.nJoints = 0 from rfl, Nat.zero_add] at key
    refine ⟨?_, ?_, ?_⟩
    · show Option.getD _ _ = _
      rw [g3 _ "root" (Or.inl rfl)]
      rfl
    · intro k b hk i x hi hx
      obtain ⟨k1, k2, k3⟩ := key k b hk
      obtain ⟨F, hF⟩ := hgood (q.map (· * deg2rad)) b.hook k1
      show Option.getD _ _ = Option.getD _ _ * _ * _
      rw [k2 i x hi hx, hF]
      simp [mul_assoc]
    · intro k b hk
      obtain ⟨k1, k2, k3⟩ := key k b hk
      obtain ⟨F, hF⟩ := hgood (q.map (· * deg2rad)) b.hook k1
      show Option.getD _ _ = Option.getD _ _ * _ * _ * _
      rw [k3, hF]
      simp [mul_assoc]
  · intro b hb x hx r
    have hmem : x ∈ bs.flatMap (·.segments) := List.mem_flatMap.mpr ⟨b, hb, hx⟩
    have hhas : o.solver.tree.Has x := (g1 x).mpr (List.mem_append_right _ hmem)
    constructor
    · rcases hhas with e | ⟨n, hn', e⟩
      · exact absurd (e ▸ hmem) (List.nodup_cons.mp hsound.names).1
      · exact List.mem_map.mpr ⟨n, hn', e⟩
    · have hpos : q.length ≠ 0 := fun e => hne (List.length_eq_zero_iff.mp e)
      unfold TreeDynSolver.placeAt Tree.fk
      rw [if_neg (by rw [List.length_map]; omega)]

/-- The map of TCPs that go with others. -/
theorem tcps_merged {c : TreeConfig} : ∀ (bs : List Branch), (∀ b ∈ bs, b.Declared c) → ∀ (m m' : Members),
    addChains c m (bs.map (·.name)) = (true, m') → (bs.map (·.name)).Nodup → (∀ b ∈ bs, m.tcps.merged b.name = none) →
    (∀ b ∈ bs, b.tcp = true → m'.tcps.merged b.name = b.merge) ∧
      ∀ e, (∀ b ∈ bs, b.tcp = true → b.name ≠ e) → m'.tcps.merged e = m.tcps.merged e := by
  intro bs
  induction bs with
  | nil =>
    intro _ m m' h _ _
    simp only [List.map_nil, addChains, Prod.mk.injEq, true_and] at h
    subst h
    simp
  | cons b bs ih =>
    intro hd m m' h hnd hm
    rw [List.map_cons, addChains] at h
    cases ha : addChain c m b.name with
    | mk ok m1 =>
      rw [ha] at h
      cases ok with
      | false => simp at h
      | true =>
        simp only at h
        rw [List.map_cons, List.nodup_cons] at hnd
        obtain ⟨-, -, g3⟩ := addChain_nodes ha
        obtain ⟨cc, d1, -, -, d4, d5⟩ := hd b (by simp)
        rw [d1, Option.getD_some] at g3
        have hstep : (b.tcp = true → m1.tcps.merged b.name = b.merge) ∧
            ∀ e, (b.tcp = true → b.name ≠ e) → m1.tcps.merged e = m.tcps.merged e := by
          have hb0 := hm b (by simp)
          unfold Tcps.addChain options at g3
          rw [d5] at g3
          rcases d4 with ⟨c1, c2⟩ | ⟨c1, c2⟩
          · rw [c2]
            simp only [Group.check, c1, Option.getD_some, asBool, ne_eq, one_ne_zero, not_false_eq_true, decide_true, if_true] at g3
            cases hmg : b.merge with
            | none =>
              rw [hmg] at g3
              simp only [Option.map_none, Option.some.injEq] at g3
              rw [← g3]
              exact ⟨fun _ => hb0, fun _ _ => rfl⟩
            | some o =>
              rw [hmg] at g3
              simp only [Option.map_some, Val.asString] at g3
              by_cases hmem : o ∈ m.tcps.endpoints ++ [b.name]
              · rw [if_pos hmem] at g3
                rw [← Option.some.inj g3]
                refine ⟨fun _ => by simp [hb0], fun e he => ?_⟩
                simp only
                rw [if_neg]
                rintro ⟨rfl, -⟩
                exact he rfl rfl
              · rw [if_neg hmem] at g3
                cases g3
          · rw [c2]
            simp only [Group.check, c1, Option.getD_none, asBool, ne_eq, not_true_eq_false, decide_false,
              Bool.false_eq_true, if_false, Option.some.injEq] at g3
            rw [← g3]
            exact ⟨fun h => (by cases h), fun _ _ => rfl⟩
        obtain ⟨k1, k2⟩ := ih (fun b' hb' => hd b' (by simp [hb'])) m1 m' h hnd.2 (fun b' hb' => by
          rw [hstep.2 b'.name fun _ e => hnd.1 (e ▸ List.mem_map_of_mem hb')]
          exact hm b' (by simp [hb']))
        refine ⟨fun b' hb' htcp => ?_, fun e he => ?_⟩
        · rcases List.mem_cons.mp hb' with rfl | hb'
          · rw [k2 b'.name fun b'' hb'' _ e => hnd.1 (e ▸ List.mem_map_of_mem hb''), hstep.1 htcp]
          · exact k1 b' hb' htcp
        · rw [k2 e fun b' hb' => he b' (by simp [hb']), hstep.2 e (he b (by simp))]

theorem Sound.limb_names {bs : List Branch} (h : Sound bs) : (bs.map (·.name)).Nodup := by
  have hn := (List.nodup_cons.mp h.names).2
  rw [List.nodup_flatMap] at hn
  refine List.pairwise_map.mpr (hn.2.imp fun {a b} hab e => ?_)
  exact hab (List.mem_of_getElem? (segments_tip a)) (by rw [e]; exact List.mem_of_getElem? (segments_tip b))

/-- C80: the TCPs are those of the configuration, if none goes with itself; so the statements about wrenches hold. -/
theorem C80_tcps {c : TreeConfig} {bs : List Branch} (h : Describes c bs)
    (hself : ∀ b ∈ bs, b.tcp = true → b.merge ≠ some b.name) {o : Opened} (ho : openSolver c = some (some o)) :
    o.solver.TcpsFit ∧ o.solver.tcps.endpoints = (bs.filter (·.tcp)).map (·.name) ∧
      ∀ b ∈ bs, b.tcp = true → o.solver.tcps.merged b.name = b.merge := by
  obtain ⟨r, h1, h2⟩ := openSolver_inv ho
  obtain ⟨-, -, h3, -⟩ := open_inv h1 h2
  rw [h.chains] at h3
  obtain ⟨s1, s2⟩ := addChains_spec bs h.limbs Members.new ["root"] new_has
  rw [h3] at s1
  have hsound := (sound_iff bs).mp (s1.mp rfl)
  obtain ⟨g1, -, -, -, g5, -⟩ := s2 _ h3
  have he : o.solver.tcps.endpoints = (bs.filter (·.tcp)).map (·.name) := by
    rw [g5]
    simp [Members.new, Tcps.empty]
  have hnames := hsound.limb_names
  obtain ⟨m1, m2⟩ := tcps_merged bs h.limbs Members.new _ h3 hnames (fun _ _ => rfl)
  have hnd : o.solver.tcps.endpoints.Nodup := by
    rw [he]
    exact hnames.sublist (List.Sublist.map _ List.filter_sublist)
  refine ⟨⟨hnd, ?_, ?_⟩, he, m1⟩
  · intro e hmem
    rw [he] at hmem
    obtain ⟨b, hb, rfl⟩ := List.mem_map.mp hmem
    have hb' := (List.mem_filter.mp hb).1
    have hx : b.name ∈ bs.flatMap (·.segments) := Declared.limb_mem hb' (segments_tip b)
    rcases (g1 b.name).mpr (List.mem_append_right _ hx) with e | ⟨n, hn, e⟩
    · exact absurd (e ▸ hx) (List.nodup_cons.mp hsound.names).1
    · exact List.mem_map.mpr ⟨n, hn, e⟩
  · intro j e x hj hm
    have hmem := List.mem_of_getElem? hj
    rw [he] at hmem
    obtain ⟨b, hb, rfl⟩ := List.mem_map.mp hmem
    obtain ⟨hb', htcp⟩ := List.mem_filter.mp hb
    rw [m1 b hb' htcp] at hm
    obtain ⟨k, hk, hbk⟩ := List.getElem_of_mem hb'
    have hbk' : bs[k]? = some b := by rw [List.getElem?_eq_getElem hk, hbk]
    have hback := hsound.merges k b hbk' htcp x hm
    rw [List.take_succ, hbk', Option.toList_some, List.filter_append, List.map_append, List.mem_append] at hback
    have hpos : o.solver.tcps.endpoints = ((bs.take k).filter (·.tcp)).map (·.name) ++ b.name ::
        ((bs.drop (k + 1)).filter (·.tcp)).map (·.name) := by
      rw [he]
      conv_lhs => rw [← List.take_append_drop k bs, List.drop_eq_getElem_cons hk, hbk]
      rw [List.filter_append, List.filter_cons_of_pos (by simpa using htcp), List.map_append, List.map_cons]
    have hjk : j = (((bs.take k).filter (·.tcp)).map (·.name)).length := by
      have h2 : o.solver.tcps.endpoints[(((bs.take k).filter (·.tcp)).map (·.name)).length]? = some b.name := by
        rw [hpos]; simp
      exact (List.getElem?_inj (List.getElem?_eq_some_iff.mp hj).1 hnd).mp (by rw [hj, h2])
    rw [hjk, hpos, List.take_left]
    rcases hback with hback | hback
    · exact hback
    · rw [List.filter_cons_of_pos (by simpa using htcp)] at hback
      simp only [List.filter_nil, List.map_cons, List.map_nil, List.mem_singleton] at hback
      subst hback
      exact absurd hm (hself b hb' htcp)

/-! ### A robot, and what goes wrong -/

/-- An arm with a mass, and a second one that has none hooked to it. Both ends are TCPs; the second one goes with the TCP
called `other`. -/
noncomputable def pair (other : String) : TreeConfig where
  top := KdlConfig.group [("mins", .list [-90, -90]), ("maxs", .list [90, 90]), ("maxvels", .list [30, 30]),
    ("gravity", .list [0, 0, -9.81]), ("ik", .str "nrjl")]
  chains := ["upper", "lower"]
  group k :=
    if k = "upper" then some ⟨KdlConfig.group [("numLinks", .int 1), ("endpoint", .int 1)],
      fun l => if l = "link_0" then some (KdlConfig.group [("A", .num 1), ("alpha", .num 90), ("mass", .num 2),
        ("cog", .list [0, 0, 0]), ("inertia", .list [1, 1, 1])]) else none⟩
    else if k = "lower" then some ⟨KdlConfig.group [("numLinks", .int 1), ("hook", .str "upper"), ("endpoint", .int 1),
        ("mergeWith", .str other)],
      fun l => if l = "link_0" then some (KdlConfig.group [("A", .num 1)]) else none⟩
    else none

/-- Its limbs. -/
noncomputable def pairLimbs (other : String) : List Branch :=
  [⟨"upper", "root", 1, [.dh 0 0 1 90], 1, true, none⟩, ⟨"lower", "upper", 1, [.dh 0 0 1 0], 1, true, some other⟩]

theorem pair_describes (other : String) : Describes (pair other) (pairLimbs other) := by
  refine ⟨rfl, ?_⟩
  intro b hb
  simp only [pairLimbs, List.mem_cons, List.not_mem_nil, or_false] at hb
  rcases hb with rfl | rfl
  · refine ⟨_, rfl, ⟨rfl, Or.inr ⟨rfl, rfl⟩, ?_, Or.inr ⟨rfl, rfl⟩⟩, Or.inr ⟨rfl, rfl⟩, Or.inl ⟨rfl, rfl⟩, rfl⟩
    intro i d hd
    match i with
    | 0 =>
      rw [← Option.some.inj hd]
      exact .dh (g := KdlConfig.group [("A", .num 1), ("alpha", .num 90), ("mass", .num 2),
        ("cog", .list [0, 0, 0]), ("inertia", .list [1, 1, 1])]) rfl (Or.inr ⟨rfl, rfl⟩) (Or.inr ⟨rfl, rfl⟩) (Or.inl rfl)
        (Or.inl rfl)
    | i + 1 => simp at hd
  · refine ⟨_, rfl, ⟨rfl, Or.inr ⟨rfl, rfl⟩, ?_, Or.inr ⟨rfl, rfl⟩⟩, Or.inl rfl, Or.inl ⟨rfl, rfl⟩, rfl⟩
    intro i d hd
    match i with
    | 0 =>
      rw [← Option.some.inj hd]
      exact .dh (g := KdlConfig.group [("A", .num 1)]) rfl (Or.inr ⟨rfl, rfl⟩) (Or.inr ⟨rfl, rfl⟩) (Or.inl rfl)
        (Or.inr ⟨rfl, rfl⟩)
    | i + 1 => simp at hd

theorem pair_opens {other : String} (h : other = "upper" ∨ other = "lower") :
    ∃ o, openSolver (pair other) = some (some o) := by
  refine (C79_opens (pair_describes other) (by simp [pairLimbs]) (mins := [-90, -90]) (maxs := [90, 90])
    (maxvels := [30, 30]) rfl rfl rfl (gx := 0) (gy := 0) (gz := -9.81) rfl (ik := "nrjl") rfl).1.mpr
    ⟨⟨?_, ?_, ?_⟩, rfl, rfl, rfl, ?_, Or.inl rfl⟩
  · intro k b hk
    match k with
    | 0 => rw [← Option.some.inj hk]; simp
    | 1 =>
      rw [← Option.some.inj hk]
      show "upper" ∈ ["root", "upper_H0", "upper_link_0", "upper"]
      decide
    | k + 2 => simp [pairLimbs] at hk
  · show ["root", "upper_H0", "upper_link_0", "upper", "lower_H0", "lower_link_0", "lower"].Nodup
    decide
  · intro k b hk _ o ho
    match k with
    | 0 => rw [← Option.some.inj hk] at ho; cases ho
    | 1 =>
      rw [← Option.some.inj hk] at ho
      show o ∈ ["upper", "lower"]
      rw [← Option.some.inj ho]
      simpa using h
    | k + 2 => simp [pairLimbs] at hk
  · intro i a b ha hb
    match i with
    | 0 => simp at ha hb; linarith
    | 1 => simp at ha hb; linarith
    | i + 2 => simp at ha

/-- The arms meet what the theorems ask for, with the mass on the first one. -/
example : (∃ o, openSolver (pair "upper") = some (some o)) ∧
    (∀ b ∈ pairLimbs "upper", b.base.IsRigid ∧ b.tip.IsRigid) ∧ (∀ b ∈ pairLimbs "upper", ∀ d ∈ b.descs, d.Turns) ∧
    (∀ b ∈ pairLimbs "upper", b.tcp = true → b.merge ≠ some b.name) ∧
    ((pairLimbs "upper").map (·.descs.length)).sum ≠ 0 ∧
    (∀ b ∈ pairLimbs "upper", ∀ cc, (pair "upper").group b.name = some cc → ∀ i < b.descs.length,
      Weighs cc i (if b.name = "upper" then some ⟨2, ⟨0, 0, 0⟩, ⟨1, 1, 1⟩⟩ else none)) ∧
    Solid.Possible ⟨2, ⟨0, 0, 0⟩, ⟨1, 1, 1⟩⟩ := by
  refine ⟨pair_opens (Or.inl rfl), ?_, ?_, ?_, by simp [pairLimbs], ?_, ?_⟩
  · intro b hb
    simp only [pairLimbs, List.mem_cons, List.not_mem_nil, or_false] at hb
    rcases hb with rfl | rfl <;> exact ⟨Frame.IsRigid.one, Frame.IsRigid.one⟩
  · intro b hb d hd
    simp only [pairLimbs, List.mem_cons, List.not_mem_nil, or_false] at hb
    rcases hb with rfl | rfl <;> simp only [List.mem_cons, List.not_mem_nil, or_false] at hd <;> subst hd <;> trivial
  · intro b hb _
    simp only [pairLimbs, List.mem_cons, List.not_mem_nil, or_false] at hb
    rcases hb with rfl | rfl <;> simp
  · intro b hb cc hcc i hi
    simp only [pairLimbs, List.mem_cons, List.not_mem_nil, or_false] at hb
    rcases hb with rfl | rfl
    · obtain rfl : i = 0 := by simpa using hi
      rw [← Option.some.inj hcc, if_pos rfl]
      exact .solid (g := KdlConfig.group [("A", .num 1), ("alpha", .num 90), ("mass", .num 2),
        ("cog", .list [0, 0, 0]), ("inertia", .list [1, 1, 1])]) rfl rfl rfl rfl
    · obtain rfl : i = 0 := by simpa using hi
      rw [← Option.some.inj hcc, if_neg (by simp)]
      exact .dh (g := KdlConfig.group [("A", .num 1)]) rfl rfl
  · refine ⟨?_, ?_, ?_, ?_⟩ <;> norm_num

/-- C80 refuted for a TCP that goes with itself: such a configuration is accepted, and the wrench on that TCP has no
effect on the torques, whatever it is; it may even be missing. -/
theorem C80_self_merge_counterexample : ∃ o, openSolver (pair "lower") = some (some o) ∧
    o.solver.tcps.endpoints = ["upper", "lower"] ∧
    ∀ (q qdot qdotdot f g : List ℝ) (frame : SolverFrame), f.length = 6 →
      o.solver.invDyn q qdot qdotdot (f ++ g) frame = o.solver.invDyn q qdot qdotdot f frame := by
  obtain ⟨o, ho⟩ := pair_opens (other := "lower") (Or.inr rfl)
  obtain ⟨r, h1, h2⟩ := openSolver_inv ho
  obtain ⟨-, -, h3, -⟩ := open_inv h1 h2
  obtain ⟨s1, s2⟩ := addChains_spec _ (pair_describes "lower").limbs Members.new ["root"] new_has
  have h3' := h3
  rw [(pair_describes "lower").chains] at h3
  obtain ⟨-, -, -, -, g5, -⟩ := s2 _ h3
  rw [h3] at s1
  have hsound := (sound_iff _).mp (s1.mp rfl)
  obtain ⟨m1, m2⟩ := tcps_merged _ (pair_describes "lower").limbs Members.new _ h3 hsound.limb_names (fun _ _ => rfl)
  have he : o.solver.tcps.endpoints = ["upper", "lower"] := by
    rw [g5]
    rfl
  have hu : o.solver.tcps.merged "upper" = none := m1 _ (List.mem_cons_self ..) rfl
  have hl : o.solver.tcps.merged "lower" = some "lower" :=
    m1 ⟨"lower", "upper", 1, [.dh 0 0 1 0], 1, true, some "lower"⟩ (by simp [pairLimbs]) rfl
  refine ⟨o, ho, he, ?_⟩
  intro q qdot qdotdot f g frame hf
  unfold TreeDynSolver.invDyn
  have hb : KdlTreeSolver.block (f ++ g) 0 = KdlTreeSolver.block f 0 := by
    unfold KdlTreeSolver.block
    rw [if_pos (by simp [hf]), if_pos (by simp [hf]), Nat.zero_mul, List.drop_zero, List.drop_zero,
      List.take_append_of_le_length (by omega)]
  have : KdlTreeSolver.fill o.solver.tcps vectorToWrench 0 (f ++ g) o.solver.tcps.endpoints 0 (fun _ => none) =
      KdlTreeSolver.fill o.solver.tcps vectorToWrench 0 f o.solver.tcps.endpoints 0 (fun _ => none) := by
    rw [he]
    simp only [KdlTreeSolver.fill, hu, hl, hb]
  rw [this]

end KdlTreeConfig

end KD
