import Verif.Kdl.TreeDynamics

/-!
# A tree that is one chain: helper lemmas
-/

namespace KD

namespace Tree

theorem wrench_add_zero (w : Wrench) : w + 0 = w := by
  cases w
  show Wrench.mk _ _ = _
  congr 1 <;> ext <;> simp

theorem wrench_zero_add (w : Wrench) : 0 + w = w := by
  cases w
  show Wrench.mk _ _ = _
  congr 1 <;> ext <;> simp

/-- Number of joints of a chain. -/
theorem moving_chain (ls : List Link) : Chain.nJoints (ls.map (·.seg)) = moving ls := by
  unfold Chain.nJoints moving
  rw [List.filter_map, List.length_map]
  rfl

/-- The forward solver of chains. -/
theorem fkLoop_chain (q : List ℝ) : ∀ (ls : List Link) (n : ℕ) (acc : Frame), n + moving ls = q.length →
    Chain.fkLoop (ls.map (·.seg)) (q.drop n) acc = some (acc * poseOf q n ls) := by
  intro ls
  induction ls with
  | nil =>
    intro n acc h
    rw [moving_nil, Nat.add_zero] at h
    rw [h, List.drop_length, List.map_nil, Chain.fkLoop, poseOf, mul_one]
  | cons l ls ih =>
    intro n acc h
    rw [moving_cons] at h
    rw [List.map_cons, Chain.fkLoop.eq_def, poseOf]
    simp only
    by_cases hm : l.Moving
    · rw [if_pos hm] at h
      rw [if_pos hm, if_pos hm]
      have hlt : n < q.length := by omega
      rw [List.drop_eq_getElem_cons hlt]
      simp only
      rw [ih (n + 1) _ (by omega), mul_assoc, List.getD_eq_getElem?_getD, List.getElem?_eq_getElem hlt,
        Option.getD_some]
    · rw [if_neg hm] at h
      rw [if_neg hm, if_neg hm, ih n _ (by omega), mul_assoc]

/-- The way back only asks for the reactions of segments that are there. -/
theorem collect_congr (q qd qdd : List ℝ) (g : Vec3) (ext : String → Option Wrench) (ns : List TreeNode) :
    ∀ f f' : String → Wrench, (∀ x ∈ ns.map (·.name), f x = f' x) →
      collect q qd qdd g ext ns f = collect q qd qdd g ext ns f' := by
  induction ns with
  | nil => intro f f' _; rfl
  | cons n ns ih =>
    intro f f' h
    have hn := h n.name (by simp)
    rw [collect, collect]
    simp only [hn]
    rw [ih _ (fun k => if k = n.parent then f' k + (n.link.seg.pose (jointValue n q)).mulWrench
      (Link.force n.link.inertia (sweep q qd qdd g (n :: ns) n.name).1 (sweep q qd qdd g (n :: ns) n.name).2
        ((ext n.name).getD 0) + f' n.name) else f' k)]
    intro x hx
    have hx' := h x (by rw [List.map_cons]; exact List.mem_cons_of_mem _ hx)
    simp only [hx']

/-- Both loops of the chain solver succeed for lists of the right sizes. -/
theorem rneLoop_some : ∀ (ls : List Link) (qs qds qdds : List ℝ) (es : List Wrench) (v a : Twist),
    qs.length = moving ls → qds.length = moving ls → qdds.length = moving ls → es.length = ls.length →
    ∃ ts w, rneLoop ls qs qds qdds es v a = some (ts, w) ∧ ts.length = moving ls := by
  intro ls
  induction ls with
  | nil =>
    intro qs qds qdds es v a h1 h2 h3 h4
    rw [moving_nil, List.length_eq_zero_iff] at h1 h2 h3
    rw [List.length_nil, List.length_eq_zero_iff] at h4
    subst h1 h2 h3 h4
    exact ⟨[], 0, rfl, rfl⟩
  | cons l ls ih =>
    intro qs qds qdds es v a h1 h2 h3 h4
    rw [moving_cons] at h1 h2 h3
    cases es with
    | nil => simp at h4
    | cons e es =>
      rw [List.length_cons, List.length_cons, Nat.add_right_cancel_iff] at h4
      by_cases hm : l.Moving
      · rw [if_pos hm] at h1 h2 h3
        cases qs with
        | nil => simp only [List.length_nil] at h1; omega
        | cons x qs =>
          cases qds with
          | nil => simp only [List.length_nil] at h2; omega
          | cons xd qds =>
            cases qdds with
            | nil => simp only [List.length_nil] at h3; omega
            | cons xdd qdds =>
              rw [List.length_cons] at h1 h2 h3
              obtain ⟨ts, w, h, hl⟩ := ih qs qds qdds es (Link.sweep l.seg x xd xdd v a).1
                (Link.sweep l.seg x xd xdd v a).2 (by omega) (by omega) (by omega) h4
              rw [rneLoop, if_pos hm]
              simp only [h, Option.bind_eq_bind, Option.bind_some]
              exact ⟨_, _, rfl, by rw [moving_cons, if_pos hm, List.length_cons, hl, Nat.add_comm]⟩
      · rw [if_neg hm, Nat.zero_add] at h1 h2 h3
        obtain ⟨ts, w, h, hl⟩ := ih qs qds qdds es (Link.sweep l.seg 0 0 0 v a).1
          (Link.sweep l.seg 0 0 0 v a).2 h1 h2 h3 h4
        rw [rneLoop.eq_def]
        simp only [if_neg hm, h, Option.bind_eq_bind, Option.bind_some]
        exact ⟨_, _, rfl, by rw [moving_cons, if_neg hm, hl, Nat.zero_add]⟩

/-- Newton-Euler along a chain that was added to a tree. -/
theorem collect_chain (q qd qdd : List ℝ) (g : Vec3) (ext : String → Option Wrench) (hqd : qd.length = q.length)
    (hqdd : qdd.length = q.length) :
    ∀ (segs : List (String × Link)) (t t' : Tree) (hook : String) (f : String → Wrench) (ts : List ℝ) (w : Wrench),
    t.addChain segs hook = (true, t') → t.nJoints + moving (segs.map (·.2)) = q.length →
    rneLoop (segs.map (·.2)) (q.drop t.nJoints) (qd.drop t.nJoints) (qdd.drop t.nJoints)
      (segs.map fun s => (ext s.1).getD 0) (sweep q qd qdd g t.nodes hook).1 (sweep q qd qdd g t.nodes hook).2 =
        some (ts, w) → (∀ s ∈ segs, f s.1 = 0) →
    collect q qd qdd g ext t'.nodes f = (List.zip (List.range' t.nJoints ts.length) ts).reverse ++
      collect q qd qdd g ext t.nodes (fun k => if k = hook then f k + w else f k) := by
  intro segs
  induction segs with
  | nil =>
    intro t t' hook f ts w h hn hr hf
    simp only [addChain, Prod.mk.injEq, true_and] at h
    subst h
    rw [List.map_nil, moving_nil, Nat.add_zero] at hn
    rw [hn, List.drop_length, ← hqd, List.drop_length, hqd, ← hqdd, List.drop_length, List.map_nil, List.map_nil,
      rneLoop] at hr
    obtain ⟨rfl, rfl⟩ := Prod.mk.inj (Option.some.inj hr)
    simp only [wrench_add_zero, ite_self]
    rfl
  | cons s segs ih =>
    intro t t' hook f ts w h hn hr hf
    obtain ⟨name, l⟩ := s
    rw [addChain] at h
    cases ha : t.addSegment name l hook with
    | none => rw [ha] at h; simp at h
    | some t1 =>
      rw [ha] at h
      simp only at h
      obtain ⟨h1, h2, -, h4, -, -, -, k, hk, hkm⟩ := addSegment_spec ha
      have hname : ∀ x ∈ t.nodes.map (·.name), x ≠ name := by
        rintro x hx rfl
        exact h2 ((has_iff t x).2 (Or.inr hx))
      rw [List.map_cons, moving_cons] at hn
      rw [moving_cons, moving_nil, Nat.add_zero] at h4
      have hf0 : f name = 0 := hf _ List.mem_cons_self
      have hf' : ∀ s ∈ segs, f s.1 = 0 := fun s hs => hf s (List.mem_cons_of_mem _ hs)
      rw [List.map_cons, List.map_cons, rneLoop.eq_def] at hr
      simp only at hr
      set v := (sweep q qd qdd g t.nodes hook).1 with hv
      set a := (sweep q qd qdd g t.nodes hook).2 with ha'
      by_cases hm : l.Moving
      · rw [if_pos hm] at hn h4
        have hlt : t.nJoints < q.length := by omega
        have e1 := List.drop_eq_getElem_cons hlt
        have e2 := List.drop_eq_getElem_cons (l := qd) (i := t.nJoints) (hqd ▸ hlt)
        have e3 := List.drop_eq_getElem_cons (l := qdd) (i := t.nJoints) (hqdd ▸ hlt)
        rw [if_pos hm, e1, e2, e3] at hr
        simp only [Option.bind_eq_bind] at hr
        have hjv : ∀ l' : List ℝ, (hl : t.nJoints < l'.length) → jointValue ⟨name, hook, l, k⟩ l' = l'[t.nJoints] := by
          intro l' hl
          rw [jointValue, if_pos hm, hkm hm, List.getD_eq_getElem?_getD, List.getElem?_eq_getElem hl, Option.getD_some]
        have hsw : sweep q qd qdd g t1.nodes name =
            Link.sweep l.seg q[t.nJoints] (qd[t.nJoints]'(hqd ▸ hlt)) (qdd[t.nJoints]'(hqdd ▸ hlt)) v a := by
          rw [hk, sweep, if_pos rfl]
          simp only [hjv q hlt, hjv qd (hqd ▸ hlt), hjv qdd (hqdd ▸ hlt)]
          rfl
        cases hrec : rneLoop (segs.map (·.2)) (q.drop (t.nJoints + 1)) (qd.drop (t.nJoints + 1))
            (qdd.drop (t.nJoints + 1)) (segs.map fun s => (ext s.1).getD 0)
            (Link.sweep l.seg q[t.nJoints] (qd[t.nJoints]'(hqd ▸ hlt)) (qdd[t.nJoints]'(hqdd ▸ hlt)) v a).1
            (Link.sweep l.seg q[t.nJoints] (qd[t.nJoints]'(hqd ▸ hlt)) (qdd[t.nJoints]'(hqdd ▸ hlt)) v a).2 with
        | none => rw [hrec] at hr; cases hr
        | some r =>
          rw [hrec] at hr
          obtain ⟨ts', w'⟩ := r
          obtain ⟨rfl, rfl⟩ := Prod.mk.inj (Option.some.inj hr)
          have := ih t1 t' name f ts' w' h (by omega) (by rw [h4, hsw]; exact hrec) hf'
          rw [this, h4, List.length_cons, List.range'_succ, List.zip_cons_cons, List.reverse_cons, List.append_assoc,
            hk, collect]
          congr 1
          have hsw' := hsw
          rw [hk] at hsw'
          simp only [hsw', hf0, wrench_zero_add, if_true]
          rw [if_pos hm, hkm hm]
          have hq' := hjv q hlt
          rw [hkm hm] at hq'
          rw [hq']
          show _ :: _ = _ :: _
          congr 1
          refine collect_congr _ _ _ _ _ _ _ _ fun x hx => ?_
          simp only [hname x hx, if_false]
      · rw [if_neg hm, Nat.zero_add] at hn
        rw [if_neg hm] at h4
        rw [if_neg hm] at hr
        simp only [Option.bind_eq_bind] at hr
        have hjv : ∀ l' : List ℝ, jointValue ⟨name, hook, l, k⟩ l' = 0 := by
          intro l'
          rw [jointValue, if_neg hm]
        have hsw : sweep q qd qdd g t1.nodes name = Link.sweep l.seg 0 0 0 v a := by
          rw [hk, sweep, if_pos rfl]
          simp only [hjv]
          rfl
        cases hrec : rneLoop (segs.map (·.2)) (q.drop t.nJoints) (qd.drop t.nJoints)
            (qdd.drop t.nJoints) (segs.map fun s => (ext s.1).getD 0)
            (Link.sweep l.seg 0 0 0 v a).1 (Link.sweep l.seg 0 0 0 v a).2 with
        | none => rw [hrec] at hr; cases hr
        | some r =>
          rw [hrec] at hr
          obtain ⟨ts', w'⟩ := r
          obtain ⟨rfl, rfl⟩ := Prod.mk.inj (Option.some.inj hr)
          have := ih t1 t' name f ts' w' h (by omega) (by rw [h4, Nat.add_zero, hsw]; exact hrec) hf'
          rw [this, h4, Nat.add_zero, hk, collect]
          congr 1
          have hsw' := hsw
          rw [hk] at hsw'
          simp only [hsw', hf0, wrench_zero_add, if_true, if_neg hm, hjv]
          refine collect_congr _ _ _ _ _ _ _ _ fun x hx => ?_
          simp only [hname x hx, if_false]

theorem find_key {rs : List (ℕ × ℝ)} (hnd : (rs.map (·.1)).Nodup) : ∀ r ∈ rs, rs.find? (·.1 = r.1) = some r := by
  intro r hr
  induction rs with
  | nil => simp at hr
  | cons a rs ih =>
    rw [List.map_cons, List.nodup_cons] at hnd
    rcases List.mem_cons.mp hr with rfl | hr
    · simp
    · rw [List.find?_cons_of_neg, ih hnd.2 hr]
      intro e
      exact hnd.1 (by simpa using ⟨r.2, by rw [of_decide_eq_true e]; exact hr⟩)

/-- Newton-Euler on a tree that is one chain. -/
theorem rne_chain {segs : List (String × Link)} {t : Tree} (h : Tree.empty.addChain segs "root" = (true, t)) (g : Vec3)
    (q qd qdd : List ℝ) (ext : String → Option Wrench) (hq : q.length = t.nJoints) (hqd : qd.length = t.nJoints)
    (hqdd : qdd.length = t.nJoints) :
    t.rne g q qd qdd ext = KD.rne (segs.map (·.2)) g q qd qdd (segs.map fun s => (ext s.1).getD 0) := by
  obtain ⟨-, hn, -⟩ := addChain_spec segs _ _ _ h
  have hn' : t.nJoints = moving (segs.map (·.2)) := by rw [hn]; exact Nat.zero_add _
  obtain ⟨ts, w, hr, hl⟩ := rneLoop_some (segs.map (·.2)) q qd qdd (segs.map fun s => (ext s.1).getD 0) 0 ⟨-g, 0⟩
    (by omega) (by omega) (by omega) (by simp)
  have hc := collect_chain q qd qdd g ext (by omega) (by omega) segs Tree.empty t "root" (fun _ => 0) ts w h
    (by rw [hq]; exact hn.symm) hr (fun _ _ => rfl)
  rw [rne, if_pos ⟨hq, hqd, hqdd⟩, KD.rne, hr, hc]
  simp only [Option.map_some, Option.some.injEq]
  have hnil : collect q qd qdd g ext Tree.empty.nodes (fun k => if k = "root" then (0 : Wrench) + w else 0) = [] := rfl
  rw [hnil, List.append_nil]
  have hz : Tree.empty.nJoints = 0 := rfl
  rw [hz]
  have hkeys : ((List.zip (List.range' 0 ts.length) ts).map (·.1)) = List.range ts.length := by
    rw [List.range_eq_range', List.map_fst_zip (by simp)]
  refine List.ext_getElem (by simp [hl, hn']) fun i h1 h2 => ?_
  have hi : i < ts.length := h2
  rw [List.getElem_map, List.getElem_range]
  have hmem : (i, ts[i]) ∈ (List.zip (List.range' 0 ts.length) ts).reverse := by
    rw [List.mem_reverse]
    refine List.mem_iff_getElem.2 ⟨i, by simp [hi], ?_⟩
    simp
  have hfind := find_key (rs := (List.zip (List.range' 0 ts.length) ts).reverse)
    (by rw [List.map_reverse, hkeys, List.nodup_reverse]; exact List.nodup_range) _ hmem
  simp only at hfind
  rw [hfind]
  rfl

end Tree

end KD
