import Verif.PointIter.Model
import Verif.GeoMap.Props2
import Verif.Polygon.Props

/-!
# Contour point iteration (C45)
-/

namespace Verif.PointIter
open Verif Verif.GeoMap Equiv Equiv.Perm Verif.PermLemmas

variable {K : Type}

/-! ## Specification -/

/-- The points of a dart: those of the edge, in reverse order for a negative label. -/
def pointsOf (s : GMap K) (d : Int) : List (Pt K) :=
  match s.edge d.natAbs with
  | some e => if 0 < d then e.pts else e.pts.reverse
  | none => []

/-- The points of the contour of `d`, which consists of `n` darts, each node once: every dart without its first point. -/
def contourPoints (s : GMap K) (d : Int) (n : Nat) : List (Pt K) :=
  (List.range n).flatMap fun k => (pointsOf s (s.phi^[k] d)).tail

/-! ## Lemmas -/

/-- The points an iterator still has to deliver. -/
def Rest (i : DPI K) (l : List (Pt K)) : Prop :=
  (i.inc = 1 ∧ i.fin = i.pts.length ∧ ∃ k : Nat, k ≤ i.pts.length ∧ i.index = k ∧ l = i.pts.drop k) ∨
    (i.inc = -1 ∧ i.fin = -1 ∧ ∃ k : Nat, k ≤ i.pts.length ∧ i.index = k - 1 ∧ l = (i.pts.take k).reverse)

theorem Rest.nil {i : DPI K} (h : Rest i []) : i.atEnd = true := by
  rcases h with ⟨h1, h2, k, h3, h4, h5⟩ | ⟨h1, h2, k, h3, h4, h5⟩
  · have := List.drop_eq_nil_iff.mp h5.symm
    simp only [DPI.atEnd, decide_eq_true_eq]
    omega
  · have h6 : (i.pts.take k).length = 0 := by rw [← List.length_reverse, ← h5]; rfl
    rw [List.length_take] at h6
    simp only [DPI.atEnd, decide_eq_true_eq]
    omega

theorem Rest.cons {i : DPI K} {p : Pt K} {l : List (Pt K)} (h : Rest i (p :: l)) :
    i.atEnd = false ∧ i.deref = .ok p ∧ Rest i.next l := by
  rcases h with ⟨h1, h2, k, h3, h4, h5⟩ | ⟨h1, h2, k, h3, h4, h5⟩
  · have hk : k < i.pts.length := by
      by_contra hk
      rw [List.drop_eq_nil_of_le (by omega)] at h5
      cases h5
    rw [List.drop_eq_getElem_cons hk] at h5
    cases h5
    refine ⟨?_, ?_, .inl ⟨h1, h2, k + 1, hk, ?_, rfl⟩⟩
    · simp only [DPI.atEnd, decide_eq_false_iff_not]
      omega
    · simp only [DPI.deref, h4]
      rw [if_neg (by omega), Int.toNat_natCast, List.getElem?_eq_getElem hk]
    · simp only [DPI.next, h4, h1]
      omega
  · cases k with
    | zero => simp at h5
    | succ k =>
      have hk : k < i.pts.length := by omega
      rw [List.take_succ_eq_append_getElem hk, List.reverse_append] at h5
      cases h5
      refine ⟨?_, ?_, .inr ⟨h1, h2, k, hk.le, ?_, rfl⟩⟩
      · simp only [DPI.atEnd, decide_eq_false_iff_not]
        omega
      · simp only [DPI.deref, h4]
        rw [if_neg (by omega), show (((k + 1 : Nat) : Int) - 1).toNat = k by omega, List.getElem?_eq_getElem hk]
      · simp only [DPI.next, h4, h1]
        omega

theorem rest_start {s : GMap K} {d : Int} (hd : s.liveD d) : ∃ i, DPI.start s d = .ok i ∧ Rest i (pointsOf s d) := by
  obtain ⟨e, he⟩ := liveD_exists hd
  refine ⟨_, by rw [DPI.start, guaranteedEdge_of he]; rfl, ?_⟩
  unfold pointsOf
  rw [he]
  by_cases h : 0 < d
  · rw [if_pos h]
    simp only [if_pos h]
    exact .inl ⟨rfl, rfl, 0, by omega, rfl, rfl⟩
  · rw [if_neg h]
    simp only [if_neg h]
    exact .inr ⟨rfl, rfl, e.pts.length, le_rfl, rfl, by simp⟩

theorem collect_rest {i : DPI K} {l : List (Pt K)} (h : Rest i l) {n : Nat} (hn : l.length ≤ n) : i.collect n = .ok l := by
  induction l generalizing i n with
  | nil => cases n <;> simp [DPI.collect, h.nil]
  | cons p l ih =>
    obtain ⟨h1, h2, h3⟩ := h.cons
    cases n with
    | zero => simp at hn
    | succ n =>
      rw [DPI.collect, h1, h2]
      simp [ih h3 (by simpa using hn)]

theorem collect_contour {s : GMap K} {d : Int} {n : Nat} (hret : ReturnsAfter s.phi d n)
    (hlive : ∀ k, s.liveD (s.phi^[k] d)) (htwo : ∀ k, 2 ≤ (pointsOf s (s.phi^[k] d)).length) (m : Nat) :
    ∀ (k : Nat) (i : DPI K) (r : List (Pt K)) (N : Nat), k + m + 1 = n → Rest i r → r ≠ [] →
      (r ++ (List.range m).flatMap fun j => (pointsOf s (s.phi^[k + 1 + j] d)).tail).length ≤ N →
      CPI.collect s N ⟨i, s.phi^[k] d, d⟩ =
        .ok (r ++ (List.range m).flatMap fun j => (pointsOf s (s.phi^[k + 1 + j] d)).tail) := by
  have step : ∀ k, s.phi (s.phi^[k] d) = s.phi^[k + 1] d := fun k => (Function.iterate_succ_apply' s.phi k d).symm
  induction m with
  | zero =>
    intro k i r N hk hr hne hN
    simp only [List.range_zero, List.flatMap_nil, List.append_nil] at hN ⊢
    have hend : s.phi (s.phi^[k] d) = d := by rw [step, show k + 1 = n by omega, hret.2.1]
    induction r generalizing i N with
    | nil => exact absurd rfl hne
    | cons p r ih =>
      obtain ⟨h1, h2, h3⟩ := hr.cons
      cases N with
      | zero => simp at hN
      | succ N =>
        rw [CPI.collect]
        simp only [h1, h2, Outcome.bind_ok]
        cases r with
        | nil =>
          have h4 := h3.nil
          simp only [CPI.next, h4, if_true, hend, ne_eq, not_true_eq_false, if_false, Outcome.bind_ok]
          cases N <;> simp [CPI.collect, h4]
        | cons q r =>
          obtain ⟨h4, -, -⟩ := h3.cons
          simp only [CPI.next, h4, Outcome.bind_ok, Bool.false_eq_true, if_false]
          rw [ih _ _ h3 (by simp) (by simpa using hN)]
          rfl
  | succ m ihm =>
    intro k i r N hk hr hne hN
    have hend : s.phi (s.phi^[k] d) ≠ d := by
      rw [step]
      intro e
      exact hret.2.2 0 (k + 1) (by omega) (by omega) (by rw [e]; rfl)
    have hsplit : (List.range (m + 1)).flatMap (fun j => (pointsOf s (s.phi^[k + 1 + j] d)).tail) =
        (pointsOf s (s.phi^[k + 1] d)).tail ++
          (List.range m).flatMap fun j => (pointsOf s (s.phi^[k + 1 + 1 + j] d)).tail := by
      rw [List.range_succ_eq_map, List.flatMap_cons, List.flatMap_map]
      simp only [Nat.add_zero]
      congr 2
      funext j
      rw [show k + 1 + j.succ = k + 1 + 1 + j by omega]
    rw [hsplit] at hN ⊢
    induction r generalizing i N with
    | nil => exact absurd rfl hne
    | cons p r ih =>
      obtain ⟨h1, h2, h3⟩ := hr.cons
      cases N with
      | zero => simp at hN
      | succ N =>
        rw [CPI.collect]
        simp only [h1, h2, Outcome.bind_ok]
        cases r with
        | nil =>
          have h4 := h3.nil
          obtain ⟨j, hj, hj'⟩ := rest_start (hlive (k + 1))
          have h2' := htwo (k + 1)
          cases hp : pointsOf s (s.phi^[k + 1] d) with
          | nil => rw [hp] at h2'; simp at h2'
          | cons q t =>
            rw [hp] at hj'
            obtain ⟨-, -, hj''⟩ := hj'.cons
            simp only [CPI.next, h4, if_true, hend, ne_eq, not_false_eq_true]
            rw [step, hj]
            simp only [Outcome.bind_ok]
            rw [ihm (k + 1) _ _ N (by omega) hj'' (by rintro rfl; rw [hp] at h2'; simp at h2')
              (by rw [hp] at hN; simpa using hN)]
            rfl
        | cons q r =>
          obtain ⟨h4, -, -⟩ := h3.cons
          simp only [CPI.next, h4, Outcome.bind_ok, Bool.false_eq_true, if_false]
          rw [ih _ _ h3 (by simp) (by simpa using hN)]
          rfl

theorem contour_split (s : GMap K) (d : Int) {n : Nat} (hn : 0 < n) : contourPoints s d n =
    (pointsOf s d).tail ++ (List.range (n - 1)).flatMap fun j => (pointsOf s (s.phi^[0 + 1 + j] d)).tail := by
  obtain ⟨m, rfl⟩ : ∃ m, n = m + 1 := ⟨n - 1, by omega⟩
  rw [contourPoints, List.range_succ_eq_map, List.flatMap_cons, List.flatMap_map]
  simp only [Nat.add_sub_cancel]
  congr 2
  funext j
  rw [show 0 + 1 + j = j.succ by omega]

theorem start_next {s : GMap K} {d : Int} {e : Edge K} (he : s.edge d.natAbs = some e) {i : DPI K} (hi : DPI.start s d = .ok i) (k : Nat) :
    DPI.next^[k] i = if 0 < d then ⟨e.pts, k, 1, e.pts.length⟩ else ⟨e.pts, e.pts.length - 1 - k, -1, -1⟩ := by
  rw [DPI.start, guaranteedEdge_of he] at hi
  simp only [Outcome.bind_ok, Outcome.ok.injEq] at hi
  subst hi
  induction k with
  | zero => split <;> simp
  | succ k ih =>
    rw [Function.iterate_succ_apply', ih]
    split
    · simp [DPI.next]
    · simp only [DPI.next, DPI.mk.injEq, true_and, and_true]
      push_cast
      ring

theorem tail_last {A q : List (Pt K)} (h : A.getLast? = q.head?) (hq : q ≠ []) : (A ++ q.tail).getLast? = q.getLast? := by
  cases q with
  | nil => exact absurd rfl hq
  | cons x t =>
    rw [List.head?_cons] at h
    cases t with
    | nil => simpa using h
    | cons y t => rw [List.getLast?_append, List.tail_cons, List.getLast?_cons_cons, List.getLast?_eq_some_getLast (List.cons_ne_nil y t)]; rfl

section
variable [Field K] [LinearOrder K]

/-- The darts of a contour. -/
theorem contour_darts {s : GMap K} (hs : GraphOK s) {d : Int} (hd : s.liveD d) :
    ∃ n, ReturnsAfter s.phi d n ∧ n ≤ 2 * s.nEdges ∧ (∀ k, s.liveD (s.phi^[k] d)) ∧
      (∀ k, s.startN? (s.phi^[k + 1] d) = s.startN? (-(s.phi^[k] d))) ∧
      s.orbitArea d = ∑ k ∈ Finset.range n, s.dartArea (s.phi^[k] d) := by
  obtain ⟨π, hg⟩ := hs.exists_rep
  have hdL := (hg.live d).mpr hd
  obtain ⟨ψ, hψ⟩ := hg.rep.exists_phi hg.symm
  have hψ : Rep s.darts s.phi s.phiInv ψ := hψ
  refine ⟨_, hψ.returns hdL, (hψ.isPeriodicPt hdL).2.trans hg.card_le, fun k => (hg.live _).mp (hψ.iterate_mem hdL k).2,
    fun k => ?_, ?_⟩
  · have hk := (hψ.iterate_mem hdL k).2
    rw [Function.iterate_succ_apply', hψ.eq _ hk]
    exact hg.start_phi hψ _ hk
  · classical
    rw [hψ.sum_range hdL]
    unfold GMap.orbitArea
    refine Finset.sum_congr (Finset.filter_congr fun x _ => ?_) fun _ _ => rfl
    exact (hψ.sameCycle_iff hdL).symm

omit [Field K] [LinearOrder K] in
theorem pointsOf_of {s : GMap K} {d : Int} {e : Edge K} (h : s.edge d.natAbs = some e) : pointsOf s d = e.dartPts d := by
  rw [pointsOf, h]
  rfl

/-- Darts that follow each other on a contour are joined at a node. -/
theorem pointsOf_joined {s : GMap K} (hs : GraphOK s) (hG : GeomOK s) {d : Int} (hd : s.liveD d) (k : Nat) :
    pointsOf s (s.phi^[k] d) ≠ [] ∧ (pointsOf s (s.phi^[k] d)).getLast? = (pointsOf s (s.phi^[k + 1] d)).head? := by
  obtain ⟨n, -, -, hl, hj, -⟩ := contour_darts hs hd
  obtain ⟨e, he⟩ := liveD_exists (hl k)
  obtain ⟨e', he'⟩ := liveD_exists (hl (k + 1))
  have lab := hs.labels
  rw [pointsOf_of he, pointsOf_of he', (hG.dart he).2, (hG.dart he').1]
  refine ⟨Edge.dartPts_ne (lab.pts_ne _ _ he) _, ?_⟩
  have hst := hj k
  have h0 : s.phi^[k] d ≠ 0 := by
    intro h0
    rw [h0] at he
    exact absurd (lab.edge_zero) (by simpa using by rw [show s.edge 0 = some e from he]; simp)
  rw [startN?_of he', startN?_of (d := -(s.phi^[k] d)) (by rw [Int.natAbs_neg]; exact he), Edge.startOf_neg _ h0] at hst
  rw [Option.some.inj hst]

/-! ## Properties -/

omit [Field K] [LinearOrder K] in
/-- C45, darts: iterating over a dart delivers the points of the edge in the direction of the dart. -/
theorem dart_points {s : GMap K} {d : Int} (hd : s.liveD d) :
    ∃ i N, DPI.start s d = .ok i ∧ ∀ n, N ≤ n → i.collect n = .ok (pointsOf s d) := by
  obtain ⟨i, h1, h2⟩ := rest_start hd
  exact ⟨i, _, h1, fun n hn => collect_rest h2 hn⟩

omit [Field K] [LinearOrder K] in
/-- C45, `reverse()`: after `k` steps it makes the iterator deliver the points met so far, backwards, starting with the
current one. -/
theorem dart_reverse {s : GMap K} {d : Int} (hd : s.liveD d) {k : Nat} (hk : k < (pointsOf s d).length) :
    ∃ i N, DPI.start s d = .ok i ∧ ∀ n, N ≤ n →
      (DPI.next^[k] i).reverse.collect n = .ok ((pointsOf s d).take (k + 1)).reverse := by
  obtain ⟨e, he⟩ := liveD_exists hd
  obtain ⟨i, hi, -⟩ := rest_start hd
  refine ⟨i, _, hi, fun n hn => collect_rest ?_ hn⟩
  rw [start_next he hi k]
  have hp : pointsOf s d = if 0 < d then e.pts else e.pts.reverse := by rw [pointsOf, he]
  rw [hp] at hk ⊢
  by_cases h : 0 < d
  · simp only [if_pos h] at hk ⊢
    exact .inr ⟨rfl, rfl, k + 1, hk, by simp [DPI.reverse], rfl⟩
  · simp only [if_neg h, List.length_reverse] at hk ⊢
    refine .inl ⟨rfl, rfl, e.pts.length - 1 - k, ?_, ?_, ?_⟩
    · simp only [DPI.reverse]
      rw [if_pos (by decide)]
      simp only
      omega
    · simp only [DPI.reverse]
      rw [if_pos (by decide)]
      simp only
      omega
    · simp only [DPI.reverse]
      rw [if_pos (by decide)]
      simp only
      rw [List.take_reverse, List.reverse_reverse]
      congr 1
      omega

/-- C45, contours: with at least two points in every edge, iterating over a contour ends and delivers the points of
its darts in order, each shared node once; the first point is delivered first only on demand. -/
theorem contour_points {s : GMap K} (hs : Reach s) {d : Int} (hd : s.liveD d)
    (htwo : ∀ l e, s.edge l = some e → 2 ≤ e.pts.length) :
    ∃ n N, ReturnsAfter s.phi d n ∧ ∀ M, N ≤ M →
      (CPI.start s d false).bind (CPI.collect s M) = .ok (contourPoints s d n) ∧
      (CPI.start s d true).bind (CPI.collect s M) = .ok ((pointsOf s d).head?.toList ++ contourPoints s d n) := by
  obtain ⟨n, hret, -, hlive, -, -⟩ := contour_darts hs.good.map.graph hd
  have two : ∀ k, 2 ≤ (pointsOf s (s.phi^[k] d)).length := by
    intro k
    obtain ⟨e, he⟩ := liveD_exists (hlive k)
    have := htwo _ e he
    rw [pointsOf, he]
    simp only
    split
    · exact this
    · rw [List.length_reverse]
      exact this
  obtain ⟨i, hi, hr⟩ := rest_start hd
  have two0 : 2 ≤ (pointsOf s d).length := two 0
  refine ⟨n, (contourPoints s d n).length + 1, hret, fun M hM => ?_⟩
  rw [contour_split s d hret.1] at hM ⊢
  cases hp : pointsOf s d with
  | nil => rw [hp] at two0; simp at two0
  | cons p t =>
    rw [hp] at hM hr two0
    have ht : t ≠ [] := by rintro rfl; simp at two0
    obtain ⟨-, -, hr'⟩ := hr.cons
    simp only [List.tail_cons] at hM ⊢
    refine ⟨?_, ?_⟩
    · rw [CPI.start, hi]
      exact collect_contour hret hlive two (n - 1) 0 i.next t M (by have := hret.1; omega) hr' ht (by omega)
    · rw [CPI.start, hi]
      have := collect_contour hret hlive two (n - 1) 0 i (p :: t) M (by have := hret.1; omega) hr (by simp)
        (by simpa using hM)
      simpa using this

theorem contour_joined {s : GMap K} (hs : GraphOK s) (hG : GeomOK s) {d : Int} (hd : s.liveD d) {n : Nat} (hn : ReturnsAfter s.phi d n) :
    (∀ k, (pointsOf s (s.phi^[k] d)).getLast? = (pointsOf s (s.phi^[k + 1] d)).head?) ∧
      ((pointsOf s d).head?.toList ++ contourPoints s d n).getLast? = (pointsOf s d).head? := by
  have hj := pointsOf_joined hs hG hd
  refine ⟨fun k => (hj k).2, ?_⟩
  have : ∀ m, ((pointsOf s d).head?.toList ++ contourPoints s d m).getLast? = (pointsOf s (s.phi^[m] d)).head? := by
    intro m
    induction m with
    | zero =>
      simp only [contourPoints, List.range_zero, List.flatMap_nil, List.append_nil, Function.iterate_zero, id_eq]
      cases (pointsOf s d).head? <;> rfl
    | succ m ih =>
      rw [contourPoints, List.range_succ, List.flatMap_append, ← List.append_assoc]
      simp only [List.flatMap_cons, List.flatMap_nil, List.append_nil]
      rw [tail_last (by exact ih) (hj m).1]
      exact (hj m).2
  rw [this n, hn.2.1]

/-- C45: every dart of a contour starts where its predecessor ends, so that the points without the first one of every dart are
the closed contour: it ends with the first point. -/
theorem contour_closed {s : GMap K} (hs : ReachG s) {d : Int} (hd : s.liveD d) {n : Nat} (hn : ReturnsAfter s.phi d n) :
    (∀ k, (pointsOf s (s.phi^[k] d)).getLast? = (pointsOf s (s.phi^[k + 1] d)).head?) ∧
      ((pointsOf s d).head?.toList ++ contourPoints s d n).getLast? = (pointsOf s d).head? :=
  contour_joined hs.reach.good.map.graph hs.geom.geom hd hn

omit [LinearOrder K] in
theorem pathSum_area2 (l : List (Pt K)) : Polygon.pathSum Polygon.cross l = area2 l := by
  induction l with
  | nil => rfl
  | cons p l ih =>
    cases l with
    | nil => rfl
    | cons q l => rw [Polygon.pathSum, area2, ih]; rfl

theorem contourPolyLoop_spec (dist : Pt K → Pt K → K) {s : GMap K} (hs : GraphOK s) (hG : GeomOK s) {d : Int} (hd : s.liveD d) {n : Nat}
    (hn : ReturnsAfter s.phi d n) (N k : Nat) (hk : k < n) (hN : n ≤ N + k) (acc : Polygon.Poly K)
    (h0 : k = 0 → acc.pts = []) (h1 : 0 < k → acc.pts = (pointsOf s d).head?.toList ++ contourPoints s d k ∧
      acc.pts.getLast? = (pointsOf s (s.phi^[k] d)).head?)
    (ha : acc.area = some (∑ i ∈ Finset.range k, s.dartArea (s.phi^[i] d))) (hb : acc.box = none) :
    ∃ p, contourPolyLoop dist s d N (s.phi^[k] d) acc = .ok p ∧
      p.pts = (pointsOf s d).head?.toList ++ contourPoints s d n ∧ p.box = none ∧
      p.area = some (∑ i ∈ Finset.range n, s.dartArea (s.phi^[i] d)) := by
  induction N generalizing k acc with
  | zero => omega
  | succ N ih =>
    obtain ⟨-, -, -, hl, -, -⟩ := contour_darts hs hd
    obtain ⟨e, he⟩ := liveD_exists (hl k)
    have hj := pointsOf_joined hs hG hd k
    have lab := hs.labels
    rw [contourPolyLoop, guaranteedEdge_of he]
    simp only [Outcome.bind_ok]
    set q : Polygon.Poly K := if s.phi^[k] d < 0 then (Polygon.Poly.ofPoints e.pts).reverse else Polygon.Poly.ofPoints e.pts with hq
    have hq1 : q.pts = pointsOf s (s.phi^[k] d) := by
      rw [pointsOf_of he, hq, Edge.dartPts]
      have h0 : s.phi^[k] d ≠ 0 := by
        intro h0
        rw [h0] at he
        exact absurd (lab.edge_zero) (by simpa using by rw [show s.edge 0 = some e from he]; simp)
      by_cases hneg : s.phi^[k] d < 0
      · rw [if_pos hneg, if_neg (by omega)]
        rfl
      · rw [if_neg hneg, if_pos (by omega)]
        rfl
    have hq2 : q.partialArea.1 = s.dartArea (s.phi^[k] d) := by
      have hn : q.area = none := by
        rw [hq]
        split <;> rfl
      rw [Polygon.Poly.partialArea, hn]
      simp only
      rw [pathSum_area2, hq1, pointsOf_of he, GMap.dartArea_of he]
      rfl
    have hext : (if s.phi^[k] d < 0 then acc.extend dist (Polygon.Poly.ofPoints e.pts).reverse
        else acc.extend dist (Polygon.Poly.ofPoints e.pts)) = acc.extend dist q := by
      rw [hq]
      split <;> rfl
    rw [hext, ← Function.iterate_succ_apply' s.phi k d]
    have hqne : q.pts ≠ [] := by rw [hq1]; exact hj.1
    -- the extended polygon
    have hnew : (acc.extend dist q).pts = (pointsOf s d).head?.toList ++ contourPoints s d (k + 1) ∧
        (acc.extend dist q).pts.getLast? = (pointsOf s (s.phi^[k + 1] d)).head? ∧
        (acc.extend dist q).area = some (∑ i ∈ Finset.range (k + 1), s.dartArea (s.phi^[i] d)) := by
      have hcp : contourPoints s d (k + 1) = contourPoints s d k ++ q.pts.tail := by
        rw [contourPoints, List.range_succ, List.flatMap_append, hq1]
        simp [contourPoints]
      rw [Finset.sum_range_succ, ← hq2, hcp]
      unfold Polygon.Poly.extend
      rw [if_neg hqne]
      by_cases hk0 : k = 0
      · subst hk0
        rw [h0 rfl]
        simp only [List.getLast?_nil, Polygon.extendGap, List.nil_append, Bool.false_eq_true, if_false, ha, Option.map_some,
          Finset.range_zero, Finset.sum_empty, add_zero]
        refine ⟨?_, ?_, trivial⟩
        · simp only [contourPoints, List.range_zero, List.flatMap_nil, List.nil_append]
          have hq1' : q.pts = pointsOf s d := hq1
          rw [← hq1']
          cases hqp : q.pts with
          | nil => exact absurd hqp hqne
          | cons x t => rfl
        · rw [hq1]
          exact hj.2
      · obtain ⟨u1, u2⟩ := h1 (by omega)
        rw [← hq1] at u2
        have hgap : Polygon.extendGap dist acc.pts.getLast? q.pts.head? = (true, 0, 0) := by
          rw [u2]
          cases hqp : q.pts with
          | nil => exact absurd hqp hqne
          | cons x t => simp [Polygon.extendGap]
        rw [hgap]
        simp only [if_true, ha, Option.map_some, add_zero]
        rw [List.drop_one]
        refine ⟨by rw [u1, List.append_assoc], ?_, trivial⟩
        rw [tail_last u2 hqne, hq1]
        exact hj.2
    have hbox : (acc.extend dist q).box = none := by
      unfold Polygon.Poly.extend
      rw [if_neg hqne, hb]
      rfl
    by_cases hk1 : k + 1 = n
    · rw [if_pos (by rw [Nat.succ_eq_add_one, hk1]; exact hn.2.1)]
      subst hk1
      exact ⟨_, rfl, hnew.1, hbox, hnew.2.2⟩
    · rw [if_neg (fun e => hn.2.2 0 (k + 1) (by omega) (by omega) (by rw [e]; rfl))]
      exact ih (k + 1) (by omega) (by omega) _ (by omega) (fun _ => ⟨hnew.1, hnew.2.1⟩) hnew.2.2 hbox

/-- C45, `contourPoly`: the polygon consists of the same points, starting and ending with the first point of the dart, and its
area is the area of the contour. -/
theorem contourPoly_points (dist : Pt K → Pt K → K) {s : GMap K} (hs : ReachG s) {d : Int} (hd : s.liveD d) :
    ∃ n p, ReturnsAfter s.phi d n ∧ contourPoly dist s d = .ok p ∧
      p.pts = (pointsOf s d).head?.toList ++ contourPoints s d n ∧ p.partialArea.1 = s.orbitArea d := by
  obtain ⟨n, hret, hle, hlive, -, hsum⟩ := contour_darts hs.reach.good.map.graph hd
  obtain ⟨p, h1, h2, -, h3⟩ := contourPolyLoop_spec dist hs.reach.good.map.graph hs.geom.geom hd hret s.fuel 0 hret.1 (by unfold GMap.fuel; omega)
    Polygon.Poly.default (fun _ => rfl) (fun h => absurd h (lt_irrefl _)) (by simp [Polygon.Poly.default]) rfl
  refine ⟨n, p, hret, h1, h2, ?_⟩
  rw [Polygon.Poly.partialArea, h3, hsum]

end

/-! ## Concrete cases -/

example : Example.map.liveD 1 ∧ (∀ l e, Example.map.edge l = some e → 2 ≤ e.pts.length) ∧ Reach Example.map := by
  refine ⟨by decide +kernel, fun l e he => ?_, Example.reach_map.reach⟩
  have h5 := Example.reach_map.reach.good.map.graph.labels.edge_lt l (by rw [he]; rfl)
  have hall : ∀ l < 5, ((Example.map.edge l).all fun e => 2 ≤ e.pts.length) = true := by decide +kernel
  have := hall l (lt_of_lt_of_eq h5 (by decide +kernel))
  rw [he] at this
  simpa using this

example : contourPoints Example.map 4 4 = [(3, 0), (2, 0), (1, 1), (0, 0), (1, -1), (2, 0)] := by decide +kernel

/-- Two nodes, an edge between them and an edge of a single point. -/
def short : GMap ℚ :=
  Example.next (Example.next (Example.next (Example.next GMap.empty (.addNode (0, 0) 0)) (.addNode (1, 0) 0))
    (.addEdge (.node 0) (.node 1) [(0, 0), (1, 0)] 0)) (.addEdge (.node 1) (.node 1) [(1, 0)] 0)

theorem short_reach : ReachG short := by
  have h2 : ReachG (Example.next (Example.next GMap.empty (.addNode (0, 0) 0)) (.addNode (1, 0) 0)) :=
    Example.reach_next (Example.reach_next .empty (by trivial) (by trivial) rfl fun _ h => absurd h (by decide +kernel))
      (by trivial) (by trivial) rfl fun _ h => absurd h (by decide +kernel)
  refine Example.reach_edge (na := ⟨(1, 0), -1⟩) (nb := ⟨(1, 0), -1⟩) (Example.reach_edge (na := ⟨(0, 0), 0⟩) (nb := ⟨(1, 0), 0⟩)
    h2 ?_ ?_ ?_ ?_ ?_ ?_) ?_ ?_ ?_ ?_ ?_ ?_ <;> decide +kernel

theorem short_walk : ∀ j < 3, ∀ i < j, short.phi^[i] 1 ≠ short.phi^[j] 1 := by decide +kernel

/-- C45 needs two points per edge ("a dart must always have a least two points", cppmap.hxx:973-976; nothing
enforces it): an edge with a single point ends the iteration early. -/
theorem contour_points_violated : ∃ (s : GMap ℚ) (d : Int) (n : Nat), ReachG s ∧ s.liveD d ∧ ReturnsAfter s.phi d n ∧
    contourPoints s d n = [(1, 0), (0, 0)] ∧ (CPI.start s d false).bind (CPI.collect s 10) = .ok [(1, 0)] :=
  ⟨short, 1, 3, short_reach, by decide +kernel, ⟨by decide, by decide +kernel, fun i j h1 h2 => short_walk j h2 i h1⟩,
    by decide +kernel, by decide +kernel⟩

end Verif.PointIter
