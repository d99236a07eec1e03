import Verif.Check.Model
import Verif.Euler.Props

/-! # Lemmas about the loops of `checkConsistency` -/

namespace Verif.Check
open Verif Verif.GeoMap Verif.Sigma Equiv Equiv.Perm Verif.PermLemmas

variable {K : Type} [Field K] [LinearOrder K]

/-! ## the sigma arrays -/

omit [Field K] [LinearOrder K] in
theorem sigmaLoop_ok {a : Arrays} {s : GMap K} (ha : Holds a s) (hg : GraphOK s) : ∀ (k : Nat) (label : Int) (r : Bool),
    (∀ i : Int, label ≤ i → i < label + k → i.natAbs ≤ a.centre) → sigmaLoop a s k label r = .ok r := by
  intro k
  induction k with
  | zero => intro label r _; rfl
  | succ k ih =>
    intro label r h
    unfold sigmaLoop
    have h1 : sigmaLabel a s label = .ok true := by
      unfold sigmaLabel
      rw [ha.agree.getS (h label (le_refl _) (by omega))]
      simp only [bind, Outcome.bind_ok]
      split_ifs with hc
      · obtain ⟨-, -, hl⟩ := hc
        have hd : s.liveD label := hl
        have h2 := hg.sigma_live label hd
        have h3 : (s.sigma label).natAbs ≤ a.centre := by
          have := hg.edge_lt _ h2.1
          have := ha.fits
          have : (Fn.of s).n = s.nEdges := rfl
          have : (s.nextSigma label).natAbs = (s.sigma label).natAbs := rfl
          omega
        rw [show (Fn.of s).sigma label = s.sigma label from rfl, ha.agree.getI h3]
        simp only [Outcome.bind_ok, Outcome.ok.injEq, decide_eq_true_eq]
        exact h2.2
      · rfl
    rw [h1]
    simp only [bind, Outcome.bind_ok, Bool.and_true]
    exact ih _ _ (fun i h2 h3 => h i (by omega) (by push_cast; omega))

omit [Field K] [LinearOrder K] in
theorem setup_ok {a : Arrays} {s : GMap K} (ha : Holds a s) : setupWrong a = false := by
  unfold setupWrong
  have h1 := ha.agree.slen
  have h2 := ha.agree.ilen
  simp only [Bool.or_eq_false_iff, decide_eq_false_iff_not, not_not]
  refine ⟨⟨by omega, by omega⟩, by omega⟩

/-! ## counting -/

theorem countP_range (n : Nat) (p : Nat → Bool) : (List.range n).countP p = ((Finset.range n).filter fun i => p i).card := by
  induction n with
  | zero => rfl
  | succ n ih =>
    rw [List.range_succ, List.countP_append, ih, Finset.range_add_one, Finset.filter_insert]
    by_cases h : p n = true
    · rw [if_pos h, Finset.card_insert_of_notMem (by simp)]; simp [h]
    · rw [if_neg h]; simp [h]

theorem sum_range (n : Nat) (h : Nat → Int) : ((List.range n).map h).sum = ∑ i ∈ Finset.range n, h i := by
  induction n with
  | zero => rfl
  | succ n ih => rw [List.range_succ, List.map_append, List.sum_append, ih, Finset.sum_range_succ]; simp

/-! ## nodes -/

omit [Field K] [LinearOrder K] in
theorem darts_card (s : GMap K) (h0 : s.edge 0 = none) : s.darts.card ≤ 2 * s.nEdges := by
  have : s.darts ⊆ (Finset.Icc (-(s.nEdges : Int)) s.nEdges).erase 0 := by
    intro x hx
    unfold GMap.darts at hx
    rw [Finset.mem_filter] at hx
    rw [Finset.mem_erase]
    refine ⟨?_, hx.1⟩
    rintro rfl
    simp [h0] at hx
  have h1 := Finset.card_le_card this
  rw [Finset.card_erase_of_mem (by simp), Int.card_Icc] at h1
  omega

omit [Field K] [LinearOrder K] in
theorem sigmaOrbit_ok {s : GMap K} {π : Perm Int} (hg : GraphRep s s.darts π) {n : Nat} {d : Int} (hd : d ∈ s.darts) (hn : s.startN? d = some n)
    (m k : Nat) (hk : k < Function.minimalPeriod s.sigma d) (hm : Function.minimalPeriod s.sigma d - k ≤ m) :
    sigmaOrbit s n d m (s.sigma^[k] d) = .ok true := by
  induction m generalizing k with
  | zero => omega
  | succ m ih =>
    unfold sigmaOrbit
    have hx := (hg.rep.iterate_mem hd k).2
    have hl := (hg.live _).mp hx
    obtain ⟨e, he⟩ := liveD_exists hl
    have hlt := hg.labels.edge_lt _ hl
    unfold edgePtr
    rw [if_pos hlt, he]
    simp only [bind, Outcome.bind_ok]
    have hs : s.startN? (s.sigma^[k] d) = some n := by
      rw [← hn]
      exact ((same_start_iff hg.rep hg.starts hg.nodes hd hx).mpr ((hg.rep.sameCycle_iff hd).mpr ⟨k, rfl⟩)).symm
    rw [startN?_of he, Option.some.injEq] at hs
    rw [if_neg (by simpa using hs), ← Function.iterate_succ_apply' s.sigma k d]
    by_cases hk1 : k + 1 = Function.minimalPeriod s.sigma d
    · have : s.sigma^[k + 1] d = d := by rw [hk1]; exact Function.iterate_minimalPeriod
      rw [if_pos this]
    · rw [if_neg (hg.rep.iterate_ne (by omega) (by omega))]
      exact ih (k + 1) (by omega) (by omega)

/-- an isolated node -/
def isolated (s : GMap K) (n : Nat) : Bool :=
  match s.node n with
  | none => false
  | some nd => decide (nd.anchor = 0)

omit [Field K] [LinearOrder K] in
theorem nodesLoop_ok {s : GMap K} {π : Perm Int} (hg : GraphRep s s.darts π) : ∀ (ns : List Nat) (cnt iso : Nat) (r : Bool),
    nodesLoop s ns cnt iso r = .ok (cnt + ns.countP (fun n => (s.node n).isSome), iso + ns.countP (isolated s), r) := by
  intro ns
  induction ns with
  | nil => intro cnt iso r; rfl
  | cons n ns ih =>
    intro cnt iso r
    unfold nodesLoop
    cases hn : s.node n with
    | none => simp [hn, ih, isolated]
    | some nd =>
      by_cases h0 : nd.anchor = 0
      · simp only [h0, if_true, ih, Outcome.ok.injEq, Prod.mk.injEq, and_true, List.countP_cons, hn, Option.isSome_some, isolated, decide_true]
        omega
      · simp only [h0, if_false]
        rcases hg.nodes n nd hn with ⟨h1, -⟩ | ⟨h1, h2, -⟩
        · exact absurd h1 h0
        have hp := hg.rep.isPeriodicPt h1
        have hc := darts_card s hg.labels.edge_zero
        have := sigmaOrbit_ok hg h1 h2 s.fuel 0 hp.1 (by unfold GMap.fuel; omega)
        rw [Function.iterate_zero, id] at this
        rw [this]
        simp only [bind, Outcome.bind_ok, Bool.and_true, ih, Outcome.ok.injEq, Prod.mk.injEq, and_true, List.countP_cons, hn, Option.isSome_some,
          isolated, h0, decide_false, if_true]
        simp
        omega

omit [Field K] [LinearOrder K] in
theorem isolated_count {s : GMap K} {π : Perm Int} (hg : GraphRep s s.darts π) :
    (List.range s.nNodes).countP (isolated s) + s.edgeNodes.card = s.liveNodes.card := by
  classical
  rw [countP_range]
  have h1 : s.edgeNodes = s.liveNodes.filter fun n => ¬ isolated s n = true := by
    unfold GMap.edgeNodes
    refine Finset.filter_congr (fun n hn => ?_)
    obtain ⟨nd, hnd⟩ := Option.isSome_iff_exists.mp ((mem_liveNodes hg.labels).mp hn)
    simp only [isolated, hnd, decide_eq_true_eq]
    rcases hg.nodes n nd hnd with ⟨h1, h2⟩ | ⟨h1, h2, -⟩
    · refine ⟨?_, fun h => absurd h1 h⟩
      rintro ⟨d, hd⟩
      exact absurd hd (h2 d ((hg.live d).mpr (liveD_of_start hd)))
    · exact ⟨fun _ => hg.ne_zero h1, fun _ => ⟨_, h2⟩⟩
  have h2 : ((Finset.range s.nNodes).filter fun n => isolated s n = true) = s.liveNodes.filter fun n => isolated s n = true := by
    ext n
    unfold GMap.liveNodes
    simp only [Finset.mem_filter, Finset.mem_range]
    constructor
    · rintro ⟨h1, h2⟩
      refine ⟨⟨h1, ?_⟩, h2⟩
      unfold isolated at h2
      split at h2
      · cases h2
      · rename_i h; rw [h]; rfl
    · rintro ⟨⟨h1, -⟩, h2⟩; exact ⟨h1, h2⟩
  rw [h1, h2]
  exact Finset.card_filter_add_card_filter_not _

/-! ## edges -/

/-- number of points and end points of an edge are right -/
def goodEdge (s : GMap K) (e : Edge K) : Bool :=
  decide (2 ≤ e.pts.length) && (decide (e.pts.head? = (s.node e.startN).map (·.pos)) && decide (e.pts.getLast? = (s.node e.endN).map (·.pos)))

omit [Field K] in
theorem edgeGeometry_ok {s : GMap K} (hg : GraphOK s) {l : Nat} {e : Edge K} (he : s.edge l = some e) : edgeGeometry s e = .ok (goodEdge s e) := by
  have hl0 : l ≠ 0 := by rintro rfl; rw [hg.edge_zero] at he; cases he
  have h1 : s.startN? (l : Int) = some e.startN := by
    rw [startN?_of (e := e) (by simpa using he)]
    unfold Edge.startOf
    rw [if_pos (by omega)]
  have h2 : s.startN? (-(l : Int)) = some e.endN := by
    rw [startN?_of (e := e) (by simpa using he)]
    unfold Edge.startOf
    rw [if_neg (by omega)]
  obtain ⟨a, ha⟩ := Option.isSome_iff_exists.mp (hg.start_live _ _ h1)
  obtain ⟨b, hb⟩ := Option.isSome_iff_exists.mp (hg.start_live _ _ h2)
  unfold edgeGeometry goodEdge
  split_ifs with hlen
  · simp [hlen]
  · rw [derefNode_of hg.labels ha, derefNode_of hg.labels hb, ha, hb]
    have : 2 ≤ e.pts.length := by omega
    simp [bind, this]

theorem edgeCheck_ok {s : GMap K} (hs : Good s) {l : Nat} {e : Edge K} (he : s.edge l = some e) : edgeCheck s e = .ok (goodEdge s e) := by
  have hg := hs.map.graph
  unfold edgeCheck
  split_ifs with hi
  · have hl0 : l ≠ 0 := by rintro rfl; rw [hg.edge_zero] at he; cases he
    have hd : s.liveD (l : Int) := liveD_edge (e := e) (by simpa using he)
    have e1 : s.left? (l : Int) = e.leftF := by
      rw [left?_of (e := e) (by simpa using he)]
      unfold Edge.leftOf
      rw [if_pos (by omega)]
    have e2 : s.left? (-(l : Int)) = e.rightF := by
      rw [left?_of (e := e) (by simpa using he)]
      unfold Edge.leftOf
      rw [if_neg (by omega)]
    have e3 : s.startN? (l : Int) = some e.startN := by
      rw [startN?_of (e := e) (by simpa using he)]
      unfold Edge.startOf
      rw [if_pos (by omega)]
    have e4 : s.startN? (-(l : Int)) = some e.endN := by
      rw [startN?_of (e := e) (by simpa using he)]
      unfold Edge.startOf
      rw [if_neg (by omega)]
    obtain ⟨f, F, f1, f2⟩ := (hs.map.contours hi).face_live _ hd
    obtain ⟨g, G, g1, g2⟩ := (hs.map.contours hi).face_live _ (liveD_neg.mpr hd)
    rw [e1] at f1
    rw [e2] at g1
    have hf := hg.face_lt f (by rw [f2]; rfl)
    have hgl := hg.face_lt g (by rw [g2]; rfl)
    have hlb : (!(decide (e.leftF = e.rightF) && decide (e.startN = e.endN))) = true := by
      by_contra hc
      simp only [Bool.not_eq_true', Bool.and_eq_false_iff, decide_eq_false_iff_not, not_or, not_not] at hc
      exact (hs.planar hi).no_loop_bridge hs.map hd (by rw [e1, e2]; exact hc.1) (by rw [e3, e4, hc.2])
    rw [hlb]
    simp only [f1, g1, facePtr, if_pos hf, if_pos hgl, f2, g2, bind, Outcome.bind_ok, edgeGeometry_ok hg he]
    simp
  · exact edgeGeometry_ok hg he

theorem edgesLoop_ok {s : GMap K} (hs : Good s) : ∀ (ls : List Nat) (cnt : Nat) (r : Bool),
    edgesLoop s ls cnt r = .ok (cnt + ls.countP (fun l => (s.edge l).isSome), r && ls.all fun l => (s.edge l).all (goodEdge s)) := by
  intro ls
  induction ls with
  | nil => intro cnt r; simp [edgesLoop]
  | cons l ls ih =>
    intro cnt r
    unfold edgesLoop
    cases he : s.edge l with
    | none => simp [he, ih]
    | some e =>
      simp only [edgeCheck_ok hs he, bind, Outcome.bind_ok, ih, Outcome.ok.injEq, Prod.mk.injEq, List.countP_cons, he, Option.isSome_some, if_true,
        List.all_cons, Option.all_some, Bool.and_assoc, and_true]
      omega

/-! ## faces -/

theorem contourLoop_eq {s : GMap K} {L : Finset Int} {ψ : Perm Int} (hc : ContoursRep s L ψ) (hl : ∀ d ∈ L, s.liveD d) {f : Nat} {a : Int}
    (ha : a ∈ L) (hf : s.left? a = some f) (n k : Nat) (acc : K) :
    contourLoop s f a n (s.phi^[k] a) acc = (s.contourAreaLoop a n (s.phi^[k] a) acc).map fun x => (a, x, true) := by
  induction n generalizing k acc with
  | zero => rfl
  | succ n ih =>
    unfold contourLoop GMap.contourAreaLoop
    have hm := (hc.rep.iterate_mem ha k).2
    obtain ⟨e, he⟩ := liveD_exists (hl _ hm)
    have hleft : s.left? (s.phi^[k] a) = some f := by
      clear ih he hm
      induction k with
      | zero => exact hf
      | succ k ih =>
        have hk := (hc.rep.iterate_mem ha k).2
        obtain ⟨g, g1, -, g2⟩ := hc.lefts _ hk
        rw [Function.iterate_succ_apply', hc.rep.eq _ hk, g2, ← g1, ih]
    rw [left?_of he] at hleft
    rw [guaranteedEdge_of he]
    simp only [bind, Outcome.bind_ok, hleft, ne_eq, not_true, if_false]
    split_ifs with h1
    · rfl
    · rfl
    · rw [← Function.iterate_succ_apply' s.phi k a]; exact ih (k + 1) _
    · rw [← Function.iterate_succ_apply' s.phi k a]; exact ih (k + 1) _

/-- the test of the signs of the contours -/
noncomputable def signs (s : GMap K) : List Int → Bool → Bool
  | [], _ => true
  | a :: as, outer => !(decide (s.orbitArea a ≤ 0) == outer) && signs s as false

theorem contoursLoop_ok {s : GMap K} (hs : Good s) (hi : s.initialized) {π ψ : Perm Int} (hg : GraphRep s s.darts π) (hc : ContoursRep s s.darts ψ)
    (f : Nat) : ∀ (as : List Int) (outer : Bool) (seen : List Int) (r : Bool), as.Nodup → (∀ a ∈ as, a ∉ seen) →
    (∀ a ∈ as, a ∈ s.darts ∧ s.left? a = some f) → contoursLoop s f as outer seen r = .ok (r && signs s as outer) := by
  classical
  intro as
  induction as with
  | nil => intro outer seen r _ _ _; simp [contoursLoop, signs]
  | cons a as ih =>
    intro outer seen r hnd hseen hL
    unfold contoursLoop
    obtain ⟨haL, haf⟩ := hL a (by simp)
    have hla := (hg.live a).mp haL
    obtain ⟨e, he⟩ := liveD_exists hla
    have hlt := hg.labels.edge_lt _ hla
    have hlive : ∀ d ∈ s.darts, s.liveD d := fun d hd => (hg.live d).mp hd
    have hloop : contourLoop s f a s.fuel a 0 = .ok (a, s.orbitArea a, true) := by
      have h1 := contourLoop_eq hc hlive haL haf s.fuel 0 0
      rw [Function.iterate_zero, id] at h1
      rw [h1]
      have h2 := contourArea_eq hc.rep hlive (darts_card s hg.labels.edge_zero) haL
      unfold GMap.contourArea at h2
      rw [h2]
      have h3 : ∑ x ∈ s.darts.filter (SameCycle ψ a), s.areaTerm x = s.orbitArea a := by
        rw [sum_areaTerm]
        · unfold GMap.orbitArea
          refine Finset.sum_congr ?_ (fun _ _ => rfl)
          ext x
          simp only [Finset.mem_filter, and_congr_right_iff]
          intro _
          exact hc.rep.sameCycle_iff haL
        · intro d hd
          exact hg.ne_zero (Finset.mem_filter.mp hd).1
        · intro d hd hb
          rw [Finset.mem_filter] at hd ⊢
          refine ⟨hg.symm d hd.1, hd.2.trans ?_⟩
          exact (hc.rep.sameCycle_iff hd.1).mpr ((hs.planar hi).bridges hs.map hi d ((hg.live d).mp hd.1) hb)
      rw [h3]; rfl
    rw [List.nodup_cons] at hnd
    simp only [edgePtr, if_pos hlt, he, bind, Outcome.bind_ok, Option.isNone_some, hloop, ne_eq, not_true, if_false, Bool.and_true, Bool.false_eq_true]
    have hs : seen.contains a = false := by
      simp only [List.contains_eq_mem, decide_eq_false_iff_not]
      exact hseen a (by simp)
    rw [hs, ih _ _ _ hnd.2 ?_ (fun x hx => hL x (by simp [hx]))]
    · simp only [signs, Bool.not_false, Bool.and_true, Bool.and_assoc]
    · intro x hx hxs
      rw [List.mem_cons] at hxs
      rcases hxs with rfl | hxs
      · exact hnd.1 hx
      · exact hseen x (by simp [hx]) hxs

theorem facesLoop_ok {s : GMap K} (hs : Good s) (hi : s.initialized) {π ψ : Perm Int} (hg : GraphRep s s.darts π) (hc : ContoursRep s s.darts ψ) :
    ∀ (fs : List Nat) (cnt : Nat) (holes contours : Int) (r : Bool), facesLoop s fs cnt holes contours r =
      .ok (cnt + fs.countP (fun f => (s.face f).isSome),
        holes + (fs.map fun f => (s.face f).elim 0 fun F => (F.anchors.length : Int) - if f = 0 then 0 else 1).sum,
        contours + (fs.map fun f => (s.face f).elim (0 : Int) fun F => (F.anchors.length : Int)).sum,
        r && fs.all fun f => (s.face f).all fun F => signs s F.anchors (decide (0 < f))) := by
  intro fs
  induction fs with
  | nil => intro cnt holes contours r; simp [facesLoop]
  | cons f fs ih =>
    intro cnt holes contours r
    unfold facesLoop
    cases hF : s.face f with
    | none => simp [hF, ih]
    | some F =>
      have hl := hc.faces f F hF
      simp only [contoursLoop_ok hs hi hg hc f F.anchors _ [] r hl.nodup (by simp) hl.left, bind, Outcome.bind_ok, ih, Outcome.ok.injEq, Prod.mk.injEq,
        List.countP_cons, hF, Option.isSome_some, if_true, List.all_cons, Option.all_some, Bool.and_assoc, and_true, List.map_cons, List.sum_cons, Option.elim]
      refine ⟨by omega, by ring, ?_⟩
      split_ifs <;> ring

end Verif.Check
