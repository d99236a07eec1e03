import Verif.Parallel.Nest
import Verif.Parallel.Props
import Verif.Eventually.Clear

/-!
# Sorting the edges and splitting the parallel ones: all nodes
-/

namespace Verif.Parallel
open Verif Verif.GeoMap Verif.Eventually Verif.DartPos Verif.PointIter Equiv

/-! ## helper lemmas -/

theorem pathLen_split {L : List (Pt ℝ)} : ∀ {j : Nat}, j < L.length → reach L j + pathLen (L.drop j) = pathLen L := by
  induction L with
  | nil => intro j hj; simp at hj
  | cons p l ih =>
    intro j hj
    cases j with
    | zero => rw [reach_zero]; simp
    | succ j =>
      cases l with
      | nil => simp at hj
      | cons q l =>
        rw [reach_cons, List.drop_succ_cons, pathLen]
        have := ih (j := j) (by simpa using hj)
        linarith

theorem reach_mono {L : List (Pt ℝ)} {j k : Nat} (h : j ≤ k) : reach L j ≤ reach L k := by
  have := reach_le (L := L.take (k + 1)) j
  rw [reach, List.take_take, Nat.min_eq_left (by omega)] at this
  exact this

theorem reach_reverse {L : List (Pt ℝ)} {k : Nat} (h : k < L.length) : reach L.reverse k = pathLen L - reach L (L.length - 1 - k) := by
  have h1 := pathLen_split (L := L) (j := L.length - 1 - k) (by omega)
  have h2 : L.reverse.take (k + 1) = (L.drop (L.length - 1 - k)).reverse := by
    rw [List.take_reverse]
    congr 2
    omega
  rw [reach, h2, pathLen_reverse]
  linarith

theorem sortNode_nest {srt : List DPA → List DPA} (hs : Sorter srt) {r m : ℝ} (hr : 0 < r) (hm : 0 < m) {N : Nat} (hN1 : 0 < N)
    (hN : ((N : ℝ) - 1) * m ≤ Real.pi / 3) {fuel : Nat} {s : GMap ℝ} {L : Finset Int} {π : Perm Int}
    (hg : GraphRep s L π) (hgeo : GeomOK s) (hlong : EdgesLong s) (hdeg : DegreeLE s N) {st : St} {n : Nat} {t : GMap ℝ} {st' : St}
    (h : sortNode srt fuel (r * r) m s st n = .ok (t, st')) {sp : Splits} (hsp : st.splits = some sp) :
    ∃ new cnt, st'.splits = some ⟨sp.list ++ new, cnt⟩ ∧ (∀ v ∈ new, Walked (pointsOf s) v ∧ s.startN? v.label = some n) ∧
      new.Pairwise fun u v => u.label = v.label → walk (pointsOf s) u < pathLen (pointsOf s u.label) → walk (pointsOf s) u < walk (pointsOf s) v := by
  unfold sortNode at h
  have triv : st' = st → ∃ new cnt, st'.splits = some ⟨sp.list ++ new, cnt⟩ ∧ (∀ v ∈ new, Walked (pointsOf s) v ∧ s.startN? v.label = some n) ∧
      new.Pairwise fun u v => u.label = v.label → walk (pointsOf s) u < pathLen (pointsOf s u.label) → walk (pointsOf s) u < walk (pointsOf s) v := by
    rintro rfl
    exact ⟨[], sp.count, by rw [hsp]; simp, by simp, by simp⟩
  cases hnd : s.node n with
  | none => rw [hnd] at h; cases h; exact triv rfl
  | some nd =>
    rw [hnd] at h
    simp only at h
    by_cases h0 : nd.anchor = 0
    · rw [if_pos h0] at h; cases h; exact triv rfl
    · rw [if_neg h0] at h
      obtain ⟨xs, e1, hfr, hnodup, hmem⟩ := node_darts hg hlong hnd h0
      rw [e1, Outcome.bind_ok] at h
      obtain ⟨⟨q, st2⟩, e2, h⟩ := Outcome.bind_eq_ok.1 h
      have hst2 : st' = st2 := by
        simp only at h
        cases hq : q.map (·.label) with
        | nil => rw [hq] at h; cases h
        | cons d ds => rw [hq] at h; cases h; rfl
      subst hst2
      have hp1 : ∀ x ∈ xs, x.dp.p1 = nd.pos := by
        intro x hx
        have hst := (hmem x.label).1 (List.mem_map_of_mem hx)
        obtain ⟨e, he⟩ := liveD_exists (liveD_of_start hst)
        rw [startN?_of he] at hst
        have h1 := (hgeo.dart he).1
        rw [Option.some.inj hst, hnd, ← pointsOf_of he, List.head?_eq_getElem?, (hfr x hx).track.p1] at h1
        exact Option.some.inj h1
      have hNr : (1 : ℝ) ≤ N := by exact_mod_cast hN1
      have hpp := Real.pi_pos
      obtain ⟨new, cnt, a, b⟩ := sortInternal_nest (P := pointsOf s) hs hr hm hN1 hN fuel nd.pos 0 false xs st q st' e2 (by linarith) hpp.le
        (by
          have := hdeg n (xs.map (·.label)) hnodup (fun d hd => (hmem d).1 hd)
          simpa using this)
        (by
          intro x hx
          refine ⟨Or.inl ⟨0, (hfr x hx).track, 0, le_rfl, zero_le_one, by rw [(hfr x hx).pos]; simp, by rw [(hfr x hx).part]; simp⟩, ?_⟩
          rw [(hfr x hx).pos, hp1 x hx, sub_self, mag_eq_zero.2 rfl]
          have : r / N ≤ r := div_le_self hr.le hNr
          linarith) (by simp) hnodup sp hsp
      refine ⟨new, cnt, a, fun v hv => ⟨(b.each v hv).1, ?_⟩, b.order⟩
      obtain ⟨x, hx, hl, -⟩ := (b.each v hv).2
      rw [← hl]
      exact (hmem x.label).1 (List.mem_map_of_mem hx)

theorem sortNodes_nest {srt : List DPA → List DPA} (hs : Sorter srt) {r m : ℝ} (hr : 0 < r) (hm : 0 < m) {N : Nat} (hN1 : 0 < N)
    (hN : ((N : ℝ) - 1) * m ≤ Real.pi / 3) {fuel : Nat} : ∀ (ns : List Nat), ns.Nodup → ∀ {s : GMap ℝ} {L : Finset Int} {π : Perm Int},
    GraphRep s L π → GeomOK s → EdgesLong s → DegreeLE s N → ∀ {st : St} {t : GMap ℝ} {st' : St}, sortNodes srt fuel (r * r) m ns s st = .ok (t, st') →
    ∀ {sp : Splits}, st.splits = some sp →
    ∃ new cnt, st'.splits = some ⟨sp.list ++ new, cnt⟩ ∧ (∀ v ∈ new, Walked (pointsOf s) v ∧ ∃ n ∈ ns, s.startN? v.label = some n) ∧
      new.Pairwise fun u v => u.label = v.label → walk (pointsOf s) u < pathLen (pointsOf s u.label) → walk (pointsOf s) u < walk (pointsOf s) v := by
  intro ns
  induction ns with
  | nil =>
    intro _ s L π _ _ _ _ st t st' h sp hsp
    cases h
    exact ⟨[], sp.count, by rw [hsp]; simp, by simp, by simp⟩
  | cons n ns ih =>
    intro hn s L π hg hgeo hlong hdeg st t st' h sp hsp
    rw [List.nodup_cons] at hn
    unfold sortNodes at h
    obtain ⟨⟨u, st1⟩, h1, h⟩ := Outcome.bind_eq_ok.1 h
    rcases sortNode_spec hs (mul_pos hr hr) hm fuel hg hgeo hlong st n with e | ⟨u', st1', π1, e, k2, ⟨sg, sgi, k3⟩, -⟩
    · rw [h1] at e; cases e
    · rw [h1] at e; cases e
      have hsame : Same s u := by rw [k3]; exact ⟨rfl, rfl⟩
      have hpts : pointsOf u = pointsOf s := by funext d; exact hsame.points d
      obtain ⟨n1, c1, a1, b1, d1⟩ := sortNode_nest hs hr hm hN1 hN hg hgeo hlong hdeg h1 hsp
      obtain ⟨n2, c2, a2, b2, d2⟩ := ih hn.2 k2 (hsame.geom hgeo) (hsame.long hlong) (fun n l h1 h2 => hdeg n l h1 (fun d hd => by rw [← hsame.start]; exact h2 d hd)) h a1
      rw [hpts] at b2 d2
      refine ⟨n1 ++ n2, c2, by rw [a2]; simp, ?_, ?_⟩
      · intro v hv
        rcases List.mem_append.1 hv with hv | hv
        · exact ⟨(b1 v hv).1, n, by simp, (b1 v hv).2⟩
        · obtain ⟨q, k, hk, e⟩ := b2 v hv
          exact ⟨q, k, by simp [hk], by rw [← hsame.start]; exact e⟩
      · rw [List.pairwise_append]
        refine ⟨d1, d2, fun x hx y hy e => ?_⟩
        obtain ⟨-, k, hk, e'⟩ := b2 y hy
        rw [hsame.start, ← e, (b1 x hx).2] at e'
        exact absurd hk (Option.some.inj e' ▸ hn.1)

end Verif.Parallel
