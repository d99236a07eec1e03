import Verif.GeoMap.Remove

/-! # `removeBridge`: complete behaviour -/

namespace Verif.GeoMap
open Equiv Equiv.Perm Verif.PermLemmas

variable {K : Type}

/-- the phi cycles after removing the edge of `r` -/
def phiRemoved (ψ : Perm Int) (r : Int) : Perm Int := skip (skip (swap r (-r) * ψ) (-r)) r

theorem phiRemoved_sameCycle {ψ : Perm Int} {r u v : Int} (hu : u ≠ r) (hu' : u ≠ -r) (hv : v ≠ r) (hv' : v ≠ -r) :
    SameCycle (phiRemoved ψ r) u v ↔ SameCycle (swap r (-r) * ψ) u v := by
  unfold phiRemoved
  rw [sameCycle_skip _ hu hv, sameCycle_skip _ hu' hv']

section Contours
variable {L : Finset Int} {f finv : Int → Int} {ψ : Perm Int} {lf : Int → Option Nat} {r : Int}

/-- anchors of the two contours into which the contour of a bridge falls -/
def bridgeNew (ψ : Perm Int) (r : Int) : List Int :=
  (if ψ (-r) = r then [] else [ψ (-r)]) ++ (if ψ r = -r then [] else [ψ r])

/-- contours after removing a bridge: the split contour -/
theorem bridge_contour_split {g : Nat} (hr : Rep L f finv ψ) (hrL : r ∈ L) (hsL : -r ∈ L) (h0 : r ≠ 0)
    (hcyc : SameCycle ψ r (-r)) (hfix : ψ r ≠ r) (hfix' : ψ (-r) ≠ -r)
    (hlf : ∀ d ∈ L, lf (ψ d) = lf d) (hlr : lf r = some g) {a : Int} {A : List Int} (hc : ContourList L ψ lf g (a :: A))
    (ha : SameCycle ψ a r) :
    ContourList (eraseEdge L r) (phiRemoved ψ r) lf g (bridgeNew ψ r ++ A) := by
  have hne : r ≠ -r := by omega
  have hfr : (swap r (-r) * ψ) r = if ψ r = -r then r else ψ r := by
    rw [Perm.mul_apply, swap_apply_def]; simp [hfix]
  have hfs : (swap r (-r) * ψ) (-r) = if ψ (-r) = r then -r else ψ (-r) := by
    rw [Perm.mul_apply, swap_apply_def]; split_ifs <;> simp_all
  have hsplit : ¬ SameCycle (swap r (-r) * ψ) (-r) r := not_sameCycle_swap_mul_split (hr.finCycle hsL) hcyc.symm hne
  have hbk : ∀ {u v}, SameCycle (swap r (-r) * ψ) u v → SameCycle ψ u v := fun h => sameCycle_of_swap_mul_split hcyc h
  have hlfs : lf (-r) = some g := by
    have := (sameCycle_iff_of_inv (f := ψ) (P := fun z => (z ∈ L ∧ lf z = some g)) (fun z => ?_) hcyc).mp ⟨hrL, hlr⟩
    · exact this.2
    · rw [hr.mem_iff]
      constructor
      · rintro ⟨x, y⟩; exact ⟨x, by rw [hlf z x, y]⟩
      · rintro ⟨x, y⟩; exact ⟨x, by rw [← hlf z x, y]⟩
  have hu := hc.unique
  rw [List.pairwise_cons] at hu
  have hA : ∀ b ∈ A, ¬ SameCycle ψ b r := fun b hb h => hu.1 b hb (ha.trans h.symm)
  have hAE : ∀ b ∈ A, b ∈ eraseEdge L r ∧ b ≠ r ∧ b ≠ -r := by
    intro b hb
    have h1 := (hc.left b (by simp [hb])).1
    have h2 : b ≠ r := by rintro rfl; exact hA _ hb (SameCycle.refl _ _)
    have h3 : b ≠ -r := by rintro rfl; exact hA _ hb hcyc.symm
    exact ⟨mem_eraseEdge.mpr ⟨h3, h2, h1⟩, h2, h3⟩
  -- the new anchors
  have hnew : ∀ x, x ∈ bridgeNew ψ r ↔ (x = ψ (-r) ∧ ψ (-r) ≠ r) ∨ (x = ψ r ∧ ψ r ≠ -r) := by
    intro x
    unfold bridgeNew
    rw [List.mem_append]
    split_ifs <;> simp_all
  have hnewE : ∀ x ∈ bridgeNew ψ r, x ∈ eraseEdge L r ∧ x ≠ r ∧ x ≠ -r ∧ lf x = some g ∧ SameCycle ψ x r := by
    intro x hx
    rw [hnew] at hx
    have : x ≠ r ∧ x ≠ -r ∧ x ∈ L ∧ lf x = some g ∧ SameCycle ψ x r := by
      rcases hx with ⟨rfl, h⟩ | ⟨rfl, h⟩
      · exact ⟨h, hfix', hr.mem hsL, by rw [hlf _ hsL, hlfs], (sameCycle_apply_left.mpr hcyc.symm)⟩
      · exact ⟨hfix, h, hr.mem hrL, by rw [hlf _ hrL, hlr], (sameCycle_apply_left.mpr (SameCycle.refl _ _))⟩
    exact ⟨mem_eraseEdge.mpr ⟨this.2.1, this.1, this.2.2.1⟩, this.1, this.2.1, this.2.2.2⟩
  have f1 : ψ (-r) ≠ r → SameCycle (swap r (-r) * ψ) (-r) (ψ (-r)) := by
    intro h
    have := sameCycle_apply_right.mpr (SameCycle.refl (swap r (-r) * ψ) (-r))
    rwa [hfs, if_neg h] at this
  have f2 : ψ r ≠ -r → SameCycle (swap r (-r) * ψ) r (ψ r) := by
    intro h
    have := sameCycle_apply_right.mpr (SameCycle.refl (swap r (-r) * ψ) r)
    rwa [hfr, if_neg h] at this
  refine ⟨?_, ?_, ?_⟩
  · intro x hx
    rw [List.mem_append] at hx
    rcases hx with hx | hx
    · obtain ⟨h1, -, -, h2, -⟩ := hnewE x hx
      exact ⟨h1, h2⟩
    · exact ⟨(hAE x hx).1, (hc.left x (by simp [hx])).2⟩
  · intro d hd hdl
    obtain ⟨d1, d2, d3⟩ := mem_eraseEdge.mp hd
    obtain ⟨b, hb, hbd⟩ := hc.cover d d3 hdl
    rw [List.mem_cons] at hb
    rcases hb with rfl | hb
    · rcases swap_mul_split_cover (s := -r) (ha.symm.trans hbd) with h | h
      · have hq : ψ r ≠ -r := by
          intro e
          rw [if_pos e] at hfr
          rw [sameCycle_fixed hfr] at h
          exact d2 h.symm
        have hm : ψ r ∈ bridgeNew ψ r := (hnew _).mpr (Or.inr ⟨rfl, hq⟩)
        refine ⟨ψ r, by simp [hm], ?_⟩
        rw [phiRemoved_sameCycle hfix hq d2 d1]
        exact (f2 hq).symm.trans h
      · have hq : ψ (-r) ≠ r := by
          intro e
          rw [if_pos e] at hfs
          rw [sameCycle_fixed hfs] at h
          exact d1 h.symm
        have hm : ψ (-r) ∈ bridgeNew ψ r := (hnew _).mpr (Or.inl ⟨rfl, hq⟩)
        refine ⟨ψ (-r), by simp [hm], ?_⟩
        rw [phiRemoved_sameCycle hq hfix' d2 d1]
        exact (f1 hq).symm.trans h
    · obtain ⟨-, b1, b2⟩ := hAE b hb
      refine ⟨b, by simp [hb], ?_⟩
      rw [phiRemoved_sameCycle b1 b2 d2 d1, sameCycle_swap_mul_other (hA b hb) (fun h => hA b hb (h.trans hcyc.symm))]
      exact hbd
  · rw [List.pairwise_append]
    refine ⟨?_, ?_, ?_⟩
    · unfold bridgeNew
      split_ifs with h1 h2 h2
      · simp
      · simp
      · simp
      · simp only [List.cons_append, List.nil_append, List.pairwise_cons, List.mem_singleton, forall_eq,
          List.not_mem_nil, false_imp_iff, implies_true, List.Pairwise.nil, and_true]
        rw [phiRemoved_sameCycle h1 hfix' hfix h2]
        intro h
        exact hsplit (((f1 h1).trans h).trans (f2 h2).symm)
    · refine List.Pairwise.imp_of_mem ?_ hu.2
      intro x y hx hy hxy h
      obtain ⟨-, x1, x2⟩ := hAE x hx
      obtain ⟨-, y1, y2⟩ := hAE y hy
      rw [phiRemoved_sameCycle x1 x2 y1 y2] at h
      exact hxy (hbk h)
    · intro x hx y hy h
      obtain ⟨-, x1, x2, -, xr⟩ := hnewE x hx
      obtain ⟨-, y1, y2⟩ := hAE y hy
      rw [phiRemoved_sameCycle x1 x2 y1 y2] at h
      exact hA y hy ((hbk h).symm.trans xr)

/-- contours after removing an edge: contours not touched by it -/
theorem contour_untouched {g : Nat} {as : List Int} (hc : ContourList L ψ lf g as)
    (hlr : ∀ b ∈ L, lf b = some g → ¬ SameCycle ψ b r ∧ ¬ SameCycle ψ b (-r)) :
    ContourList (eraseEdge L r) (phiRemoved ψ r) lf g as := by
  have key : ∀ b ∈ L, lf b = some g → b ≠ r ∧ b ≠ -r := by
    intro b hb hl
    have := hlr b hb hl
    exact ⟨by rintro rfl; exact this.1 (SameCycle.refl _ _), by rintro rfl; exact this.2 (SameCycle.refl _ _)⟩
  have cyc : ∀ {b d}, b ∈ L → lf b = some g → d ∈ L → lf d = some g →
      (SameCycle (phiRemoved ψ r) b d ↔ SameCycle ψ b d) := by
    intro b d hb hbl hd hdl
    obtain ⟨b1, b2⟩ := key b hb hbl
    obtain ⟨d1, d2⟩ := key d hd hdl
    rw [phiRemoved_sameCycle b1 b2 d1 d2]
    exact sameCycle_swap_mul_other (hlr b hb hbl).1 (hlr b hb hbl).2
  refine ⟨fun a ha => ?_, fun d hd hdl => ?_, ?_⟩
  · obtain ⟨h1, h2⟩ := hc.left a ha
    obtain ⟨b1, b2⟩ := key a h1 h2
    exact ⟨mem_eraseEdge.mpr ⟨b2, b1, h1⟩, h2⟩
  · obtain ⟨-, -, d3⟩ := mem_eraseEdge.mp hd
    obtain ⟨b, hb, hbd⟩ := hc.cover d d3 hdl
    exact ⟨b, hb, (cyc (hc.left b hb).1 (hc.left b hb).2 d3 hdl).mpr hbd⟩
  · refine List.Pairwise.imp_of_mem ?_ hc.unique
    intro x y hx hy hxy h
    exact hxy ((cyc (hc.left x hx).1 (hc.left x hx).2 (hc.left y hy).1 (hc.left y hy).2).mp h)

end Contours

/-- the state after `removeBridge`; `s2` is the state after detaching the two darts -/
def bridgeState (s2 : GMap K) (l : Nat) (rm1 rm2 : Bool) (n1 n2 : Nat) (f : Nat) (F : Face K) (as : List Int) : GMap K :=
  let t := s2.uninitEdge l
  let t := if rm1 then t.uninitNode n1 else t
  let t := if rm2 then t.uninitNode n2 else t
  t.setFace f (some { F with anchors := as })

theorem removeIsolatedNode_of {s : GMap K} {h : Hooks K} {n : Nat} {nd : Node K} (hlt : n < s.nNodes) (hn : s.node n = some nd) :
    s.removeIsolatedNode h n = .ok (h.removeNode s n, if h.removeNode s n then s.uninitNode n else s) := by
  unfold GMap.removeIsolatedNode
  have : s.derefNode n = .ok nd := by simp [GMap.derefNode, hlt, hn]
  simp only [bind, this, Outcome.bind_ok]
  split_ifs with h1
  · rw [h1]
  · simp only [Bool.not_eq_true] at h1; rw [h1]

theorem skip_skip_comm (π : Perm Int) (r q : Int) : skip (skip π r) q = skip (skip π q) r := by
  ext x
  have inj : ∀ a b, π a = π b ↔ a = b := fun a b => π.injective.eq_iff
  have i1 := inj r x
  have i2 := inj q x
  have i3 := inj r q
  simp only [skip_apply]
  grind

theorem eraseEdge_neg (L : Finset Int) (r : Int) : eraseEdge L (-r) = eraseEdge L r := by
  ext x; simp only [mem_eraseEdge, neg_neg]; tauto

/-- the situation in `removeBridge` -/
structure BridgeCtx (s : GMap K) (π ψ : Perm Int) (d : Int) (f : Nat) (F : Face K) (e : Edge K) : Prop where
  hg : GraphRep s s.darts π
  hc : ContoursRep s s.darts ψ
  hdL : d ∈ s.darts
  he : s.edge d.natAbs = some e
  gl : s.left? d = some f
  gr : s.left? (-d) = some f
  hF : s.face f = some F
  n12 : e.startOf d ≠ e.endOf d
  hcy : SameCycle ψ d (-d)

namespace BridgeCtx
variable {s : GMap K} {π ψ : Perm Int} {d : Int} {f : Nat} {F : Face K} {e : Edge K}

theorem hmL (C : BridgeCtx s π ψ d f F e) : -d ∈ s.darts := C.hg.symm d C.hdL
theorem h0 (C : BridgeCtx s π ψ d f F e) : d ≠ 0 := C.hg.ne_zero C.hdL
theorem he' (C : BridgeCtx s π ψ d f F e) : s.edge (-d).natAbs = some e := by simpa using C.he
theorem st1 (C : BridgeCtx s π ψ d f F e) : s.startN? d = some (e.startOf d) := startN?_of C.he
theorem st2 (C : BridgeCtx s π ψ d f F e) : s.startN? (-d) = some (e.endOf d) := by
  rw [startN?_of C.he', e.startOf_neg C.h0]
theorem el (C : BridgeCtx s π ψ d f F e) : e.leftOf d = some f := by rw [← C.gl]; exact (left?_of C.he).symm
theorem er (C : BridgeCtx s π ψ d f F e) : e.rightOf d = some f := by
  rw [← C.gr, left?_of C.he', e.leftOf_neg C.h0]
theorem node1 (C : BridgeCtx s π ψ d f F e) : ∃ nd, s.node (e.startOf d) = some nd := by
  obtain ⟨_, q1, q2, -⟩ := C.hg.starts d C.hdL
  rw [C.st1] at q1; cases q1
  exact Option.isSome_iff_exists.mp q2
theorem node2 (C : BridgeCtx s π ψ d f F e) : ∃ nd, s.node (e.endOf d) = some nd := by
  obtain ⟨_, q1, q2, -⟩ := C.hg.starts (-d) C.hmL
  rw [C.st2] at q1; cases q1
  exact Option.isSome_iff_exists.mp q2
theorem pa1 (C : BridgeCtx s π ψ d f F e) : s.sigmaInv d = ψ (-d) := by
  rw [← C.hc.rep.eq _ C.hmL]; show _ = s.sigmaInv (- -d); rw [neg_neg]
theorem pa2 (C : BridgeCtx s π ψ d f F e) : s.sigmaInv (-d) = ψ d := by
  rw [← C.hc.rep.eq _ C.hdL]; rfl
theorem invst (C : BridgeCtx s π ψ d f F e) {x : Int} (hx : x ∈ s.darts) : s.startN? (s.sigmaInv x) = s.startN? x := by
  rw [C.hg.rep.eqi _ hx]
  obtain ⟨m, k1, -, k3⟩ := C.hg.starts _ (C.hg.rep.memi hx)
  rw [show π (π⁻¹ x) = x by simp] at k3
  rw [k1, k3]
theorem fix1 (C : BridgeCtx s π ψ d f F e) : ψ d ≠ d := by
  intro h
  have := C.invst C.hmL
  rw [C.pa2, h, C.st1, C.st2] at this
  exact C.n12 (Option.some.inj this)
theorem fix2 (C : BridgeCtx s π ψ d f F e) : ψ (-d) ≠ -d := by
  intro h
  have := C.invst C.hdL
  rw [C.pa1, h, C.st1, C.st2] at this
  exact C.n12 (Option.some.inj this).symm
theorem ab1 (C : BridgeCtx s π ψ d f F e) : (ψ (-d)).natAbs = d.natAbs ↔ ψ (-d) = d := by
  have := C.fix2
  constructor
  · omega
  · intro h; rw [h]
theorem ab2 (C : BridgeCtx s π ψ d f F e) : (ψ d).natAbs = d.natAbs ↔ ψ d = -d := by
  have := C.fix1
  constructor
  · omega
  · intro h; rw [h]; simp
theorem iso1 (C : BridgeCtx s π ψ d f F e) : ψ (-d) = d ↔ s.sigma d = d := by
  rw [← C.pa1]
  constructor
  · intro h'; have := C.hg.rep.f_finv C.hdL; rwa [h'] at this
  · intro h'; have := C.hg.rep.finv_f C.hdL; rwa [h'] at this
theorem iso2 (C : BridgeCtx s π ψ d f F e) : ψ d = -d ↔ s.sigma (-d) = -d := by
  rw [← C.pa2]
  constructor
  · intro h'; have := C.hg.rep.f_finv C.hmL; rwa [h'] at this
  · intro h'; have := C.hg.rep.finv_f C.hmL; rwa [h'] at this
theorem hlf (C : BridgeCtx s π ψ d f F e) : ∀ x ∈ s.darts, s.left? (ψ x) = s.left? x := by
  intro x hx
  obtain ⟨k, k1, -, k3⟩ := C.hc.lefts x hx
  rw [k1, k3]

/-- the anchor nodes after detaching -/
theorem zero (C : BridgeCtx s π ψ d f F e) {s2 : GMap K}
    (G : GraphRep (s2.uninitEdge d.natAbs) (eraseEdge s.darts d) (skip (skip π d) (-d)))
    (SL : ∀ x ∈ eraseEdge s.darts d, (s2.uninitEdge d.natAbs).startN? x = s.startN? x)
    {md1 md2 : Node K} (h1 : s2.node (e.startOf d) = some md1) (h2 : s2.node (e.endOf d) = some md2) :
    (md1.anchor = 0 ↔ s.sigma d = d) ∧ (md2.anchor = 0 ↔ s.sigma (-d) = -d) := by
  have n12 := C.n12
  constructor
  · rw [C.hg.rep.eq _ C.hdL]
    exact anchor_zero_iff C.hg C.hdL C.st1 (by rw [C.st2]; simpa using fun e => n12 e.symm) G SL h1
  · rw [C.hg.rep.eq _ C.hmL]
    refine anchor_zero_iff C.hg C.hmL C.st2 (by rw [neg_neg, C.st1]; simpa using n12) (t := s2.uninitEdge d.natAbs) ?_ ?_ h2
    · rw [eraseEdge_neg, skip_skip_comm, neg_neg]; exact G
    · intro x hx; rw [eraseEdge_neg] at hx; exact SL x hx

theorem graph (C : BridgeCtx s π ψ d f F e) {s2 : GMap K} (hs2 : s2.face = s.face)
    (G : GraphRep (s2.uninitEdge d.natAbs) (eraseEdge s.darts d) (skip (skip π d) (-d)))
    (SL : ∀ x ∈ eraseEdge s.darts d, (s2.uninitEdge d.natAbs).startN? x = s.startN? x)
    {md1 md2 : Node K} (h1 : s2.node (e.startOf d) = some md1) (h2 : s2.node (e.endOf d) = some md2)
    {rm1 rm2 : Bool} (as : List Int) (r1 : rm1 = true → s.sigma d = d) (r2 : rm2 = true → s.sigma (-d) = -d) :
    GraphRep (bridgeState s2 d.natAbs rm1 rm2 (e.startOf d) (e.endOf d) f F as) (eraseEdge s.darts d) (skip (skip π d) (-d)) := by
  obtain ⟨z1, z2⟩ := C.zero G SL h1 h2
  have n12 := C.n12
  unfold bridgeState
  have G1 : GraphRep (if rm1 = true then (s2.uninitEdge d.natAbs).uninitNode (e.startOf d) else s2.uninitEdge d.natAbs)
      (eraseEdge s.darts d) (skip (skip π d) (-d)) := by
    cases rm1 with
    | false => exact G
    | true => exact G.uninitNode h1 (z1.mpr (r1 rfl))
  have G2 : GraphRep (if rm2 = true then (if rm1 = true then (s2.uninitEdge d.natAbs).uninitNode (e.startOf d) else s2.uninitEdge d.natAbs).uninitNode (e.endOf d) else (if rm1 = true then (s2.uninitEdge d.natAbs).uninitNode (e.startOf d) else s2.uninitEdge d.natAbs))
      (eraseEdge s.darts d) (skip (skip π d) (-d)) := by
    cases rm2 with
    | false => exact G1
    | true =>
      refine G1.uninitNode (nd := md2) ?_ (z2.mpr (r2 rfl))
      cases rm1 with
      | false => exact h2
      | true =>
        show Function.update s2.node (e.startOf d) none (e.endOf d) = _
        rw [Function.update_of_ne (fun e => n12 e.symm)]; exact h2
  refine G2.setFace ?_
  have : (s2.uninitEdge d.natAbs).face f = some F := by
    show s2.face f = some F
    rw [hs2]; exact C.hF
  have this' : ((s2.uninitEdge d.natAbs).face f).isSome = true := by rw [this]; rfl
  cases rm1 <;> cases rm2 <;> exact this'

theorem contours (C : BridgeCtx s π ψ d f F e) {t : GMap K} {as A : List Int} {a : Int}
    (hFc : t.face = Function.update s.face f (some { F with anchors := as }))
    (SL : ∀ x ∈ eraseEdge s.darts d, t.left? x = s.left? x)
    (R : Rep (eraseEdge s.darts d) t.sigma t.sigmaInv (skip (skip π d) (-d)))
    (hA : F.anchors.Perm (a :: A)) (hac : SameCycle ψ a d) (hp : as.Perm (bridgeNew ψ d ++ A)) :
    ContoursRep t (eraseEdge s.darts d) (phiRemoved ψ d) := by
  have hc := C.hc
  have hsplit := bridge_contour_split hc.rep C.hdL C.hmL C.h0 C.hcy C.fix1 C.fix2 C.hlf C.gl
    ((hc.faces f F C.hF).perm hA) hac
  have hphi : Rep (eraseEdge s.darts d) t.phi t.phiInv (phiRemoved ψ d) :=
    C.hg.rep.phi_remove C.hg.symm hc.rep C.hdL rfl C.h0 R
  refine ⟨hphi, ?_, ?_, ?_⟩
  · intro x hx
    obtain ⟨-, -, x3⟩ := mem_eraseEdge.mp hx
    obtain ⟨g, k1, k2, -⟩ := hc.lefts x x3
    rw [hFc]
    refine ⟨g, by rw [SL x hx, k1], ?_, ?_⟩
    · by_cases hgf : g = f
      · subst hgf; simp
      · rw [Function.update_of_ne hgf]; exact k2
    · have hm := hphi.mem hx
      rw [SL _ hm]
      obtain ⟨x1, x2, -⟩ := mem_eraseEdge.mp hx
      obtain ⟨y1, y2, -⟩ := mem_eraseEdge.mp hm
      have := sameCycle_apply_right.mpr (SameCycle.refl (phiRemoved ψ d) x)
      rw [phiRemoved_sameCycle x2 x1 y2 y1] at this
      rw [left_of_sameCycle hc.rep hc.lefts x3 (sameCycle_of_swap_mul_split C.hcy this), k1]
  · intro g G' hG'
    rw [hFc] at hG'
    by_cases hgf : g = f
    · subst hgf
      rw [Function.update_self] at hG'
      cases hG'
      exact (hsplit.perm hp.symm).congr (fun x hx => SL x hx)
    · rw [Function.update_of_ne hgf] at hG'
      refine (contour_untouched (hc.faces g G' hG') ?_).congr (fun x hx => SL x hx)
      intro b hbm hbl
      constructor
      · intro h'
        have := left_of_sameCycle hc.rep hc.lefts hbm h'
        rw [C.gl, hbl] at this; exact hgf (Option.some.inj this).symm
      · intro h'
        have := left_of_sameCycle hc.rep hc.lefts hbm h'
        rw [C.gr, hbl] at this; exact hgf (Option.some.inj this).symm
  · rw [hFc]
    by_cases hgf : 0 = f
    · rw [hgf]; simp
    · rw [Function.update_of_ne hgf]; exact hc.face_zero

end BridgeCtx

section
variable [Field K] [LinearOrder K]

open Classical in
/-- The new anchors of a face with anchors `as0` of which number `i` lies on the contour of the removed bridge `d`. -/
def BridgeList (L : Finset Int) (ψ : Perm Int) (s2 : GMap K) (d : Int) (f i : Nat) (as0 as : List Int) : Prop :=
  (ψ (-d) = d ∧ ψ d = -d ∧ as = as0.eraseIdx i) ∨ (∃ b, as = as0.set i b) ∨
    ∃ b1 b2, as = as0.set i b1 ++ [b2] ∧ b1 ∈ eraseEdge L d ∧ b2 ∈ eraseEdge L d ∧ (i = 0 → f ≠ 0 →
      ∑ x ∈ (eraseEdge L d).filter (SameCycle (phiRemoved ψ d) b2), s2.areaTerm x ≤
        ∑ x ∈ (eraseEdge L d).filter (SameCycle (phiRemoved ψ d) b1), s2.areaTerm x)

/-- How the pieces of a bridge removal fit together. -/
structure BridgeResult (h : Hooks K) (s : GMap K) (d : Int) (f : Nat) (F : Face K) (e : Edge K) (s2 t : GMap K) : Prop where
  ex : ∃ node' sg sgi, s2 = { s with node := node', sigma := sg, sigmaInv := sgi }
  t_eq : ∃ rm1 rm2 as, t = bridgeState s2 d.natAbs rm1 rm2 (e.startOf d) (e.endOf d) f F as ∧
    rm1 = (decide (s.sigma d = d) && h.removeNode s2 (e.startOf d)) ∧
    rm2 = (decide (s.sigma (-d) = -d) && h.removeNode (if rm1 then s2.uninitNode (e.startOf d) else s2) (e.endOf d))
  pos : ∀ m, (s2.node m).map (·.pos) = (s.node m).map (·.pos)
  other : ∀ m, m ≠ e.startOf d → m ≠ e.endOf d → s2.node m = s.node m
  reps : ∀ π ψ, GraphRep s s.darts π → ContoursRep s s.darts ψ →
    GraphRep t (eraseEdge s.darts d) (skip (skip π d) (-d)) ∧ ContoursRep t (eraseEdge s.darts d) (phiRemoved ψ d)
  startN : ∀ x ∈ eraseEdge s.darts d, t.startN? x = s.startN? x ∧ t.left? x = s.left? x
  ok : MapOK t
  list : ∀ π ψ, GraphRep s s.darts π → ContoursRep s s.darts ψ → ∃ i a as, F.anchors[i]? = some a ∧ SameCycle ψ a d ∧
    t.face = Function.update s.face f (some { F with anchors := as }) ∧ BridgeList s.darts ψ s2 d f i F.anchors as

open Classical in
/-- the new anchor list -/
theorem bridgeAnchors_eq {s2 : GMap K} {L : Finset Int} {ψ' : Perm Int} (hr : Rep L s2.phi s2.phiInv ψ')
    (hl : ∀ x ∈ L, s2.liveD x) (hcard : L.card ≤ 2 * s2.nEdges) {a1 a2 : Int} (h1 : a1 ∈ L) (h2 : a2 ∈ L)
    (f i : Nat) (anchors : List Int) :
    ∃ b1 b2, ((b1 = a1 ∧ b2 = a2) ∨ (b1 = a2 ∧ b2 = a1)) ∧
      s2.bridgeAnchors f i anchors a1 a2 = .ok (anchors.set i b1 ++ [b2]) ∧
      (i = 0 → f ≠ 0 → ∑ x ∈ L.filter (SameCycle ψ' b2), s2.areaTerm x ≤ ∑ x ∈ L.filter (SameCycle ψ' b1), s2.areaTerm x) := by
  unfold GMap.bridgeAnchors
  split_ifs with hc
  · simp only [bind, contourArea_eq hr hl hcard h1, contourArea_eq hr hl hcard h2, Outcome.bind_ok]
    split_ifs with hlt
    · exact ⟨a2, a1, Or.inr ⟨rfl, rfl⟩, rfl, fun _ _ => hlt.le⟩
    · exact ⟨a1, a2, Or.inl ⟨rfl, rfl⟩, rfl, fun _ _ => not_lt.mp hlt⟩
  · exact ⟨a1, a2, Or.inl ⟨rfl, rfl⟩, rfl, fun h1 h2 => absurd ⟨h1, h2⟩ hc⟩

theorem set_perm {as : List Int} {i : Nat} (hi : i < as.length) (b : Int) : (as.set i b).Perm (b :: as.eraseIdx i) :=
  List.set_perm_cons_eraseIdx hi b

theorem bridgeUpdate_eq {s s2 : GMap K} {π ψ : Perm Int} {d : Int} {f : Nat} {F : Face K} {e : Edge K}
    (C : BridgeCtx s π ψ d f F e) (h : Hooks K)
    (hr : Rep (eraseEdge s.darts d) s2.phi s2.phiInv (phiRemoved ψ d))
    (hl : ∀ x ∈ eraseEdge s.darts d, s2.liveD x) (hE : s2.nEdges = s.nEdges)
    {md1 md2 : Node K} (h1 : s2.node (e.startOf d) = some md1) (h2 : s2.node (e.endOf d) = some md2)
    (lt1 : e.startOf d < s2.nNodes) (lt2 : e.endOf d < s2.nNodes) {i : Nat} (hi : i < F.anchors.length) :
    ∃ rm1 rm2 as, (s2.bridgeUpdate h e f F i d (ψ (-d)) (ψ d)).bind (fun s => .ok (some f, s.uninitEdge d.natAbs)) =
        .ok (some f, bridgeState s2 d.natAbs rm1 rm2 (e.startOf d) (e.endOf d) f F as) ∧
      rm1 = (decide (s.sigma d = d) && h.removeNode s2 (e.startOf d)) ∧
      rm2 = (decide (s.sigma (-d) = -d) && h.removeNode (if rm1 then s2.uninitNode (e.startOf d) else s2) (e.endOf d)) ∧
      as.Perm (bridgeNew ψ d ++ F.anchors.eraseIdx i) ∧ BridgeList s.darts ψ s2 d f i F.anchors as := by
  have n12 := C.n12
  have st2 : e.startOf (-d) = e.endOf d := e.startOf_neg C.h0
  unfold GMap.bridgeUpdate
  have i1 := C.iso1
  have i2 := C.iso2
  have a1 := C.ab1
  have a2 := C.ab2
  by_cases c1 : ψ (-d) = d
  · rw [if_pos (a1.mpr c1)]
    simp only [bind, c1, removeIsolatedNode_of (h := h) lt1 h1, Outcome.bind_ok]
    by_cases c2 : ψ d = -d
    · rw [if_pos (a2.mpr c2)]
      have h2' : (if h.removeNode s2 (e.startOf d) = true then s2.uninitNode (e.startOf d) else s2).node (e.endOf d) = some md2 := by
        cases h.removeNode s2 (e.startOf d) with
        | false => exact h2
        | true =>
          show Function.update s2.node (e.startOf d) none (e.endOf d) = _
          rw [Function.update_of_ne (fun e => n12 e.symm)]; exact h2
      have lt2' : e.endOf d < (if h.removeNode s2 (e.startOf d) = true then s2.uninitNode (e.startOf d) else s2).nNodes := by
        cases h.removeNode s2 (e.startOf d) <;> exact lt2
      simp only [c2, st2, removeIsolatedNode_of (h := h) lt2' h2', Outcome.bind_ok]
      refine ⟨h.removeNode s2 (e.startOf d),
        h.removeNode (if h.removeNode s2 (e.startOf d) = true then s2.uninitNode (e.startOf d) else s2) (e.endOf d),
        F.anchors.eraseIdx i, ?_, ?_, ?_, ?_, Or.inl ⟨c1, c2, rfl⟩⟩
      · congr 2
        unfold bridgeState
        cases h.removeNode s2 (e.startOf d) <;>
          cases h.removeNode _ (e.endOf d) <;> rfl
      · simp [i1.mp c1]
      · simp [i2.mp c2]
      · simp [bridgeNew, c1, c2]
    · rw [if_neg (fun h' => c2 (a2.mp h'))]
      simp only [Outcome.bind_ok]
      refine ⟨h.removeNode s2 (e.startOf d), false, F.anchors.set i (ψ d), ?_, ?_, ?_, ?_, Or.inr (Or.inl ⟨_, rfl⟩)⟩
      · congr 2
        unfold bridgeState
        cases h.removeNode s2 (e.startOf d) <;> rfl
      · simp [i1.mp c1]
      · have : ¬ s.sigma (-d) = -d := fun h' => c2 (i2.mpr h')
        simp [this]
      · simpa [bridgeNew, c1, c2] using set_perm hi (ψ d)
  · rw [if_neg (fun h' => c1 (a1.mp h'))]
    have n1 : ¬ s.sigma d = d := fun h' => c1 (i1.mpr h')
    by_cases c2 : ψ d = -d
    · rw [if_pos (a2.mpr c2)]
      simp only [bind, c2, st2, removeIsolatedNode_of (h := h) lt2 h2, Outcome.bind_ok]
      refine ⟨false, h.removeNode s2 (e.endOf d), F.anchors.set i (ψ (-d)), ?_, ?_, ?_, ?_, Or.inr (Or.inl ⟨_, rfl⟩)⟩
      · congr 2
        unfold bridgeState
        cases h.removeNode s2 (e.endOf d) <;> rfl
      · simp [n1]
      · simp [i2.mp c2]
      · simpa [bridgeNew, c1, c2] using set_perm hi (ψ (-d))
    · rw [if_neg (fun h' => c2 (a2.mp h'))]
      have m1 : ψ (-d) ∈ eraseEdge s.darts d := mem_eraseEdge.mpr ⟨C.fix2, c1, C.hc.rep.mem C.hmL⟩
      have m2 : ψ d ∈ eraseEdge s.darts d := mem_eraseEdge.mpr ⟨c2, C.fix1, C.hc.rep.mem C.hdL⟩
      have hcard : (eraseEdge s.darts d).card ≤ 2 * s2.nEdges := by
        rw [hE]
        exact (Finset.card_le_card (fun x hx => (mem_eraseEdge.mp hx).2.2)).trans C.hg.card_le
      obtain ⟨b1, b2, hor, hb, hle⟩ := bridgeAnchors_eq hr hl hcard m1 m2 f i F.anchors
      simp only [bind, hb, Outcome.bind_ok]
      refine ⟨false, false, F.anchors.set i b1 ++ [b2], rfl, by simp [n1], ?_, ?_, Or.inr (Or.inr ⟨b1, b2, rfl, ?_, ?_, hle⟩)⟩
      · have : ¬ s.sigma (-d) = -d := fun h' => c2 (i2.mpr h')
        simp [this]
      · have p1 : (F.anchors.set i b1 ++ [b2]).Perm (b2 :: b1 :: F.anchors.eraseIdx i) :=
          List.perm_append_comm.trans (List.Perm.cons _ (set_perm hi b1))
        refine p1.trans ?_
        simp only [bridgeNew, c1, c2, if_false, List.cons_append, List.nil_append]
        rcases hor with ⟨rfl, rfl⟩ | ⟨rfl, rfl⟩
        · exact List.Perm.swap _ _ _
        · exact List.Perm.refl _
      · rcases hor with ⟨rfl, rfl⟩ | ⟨rfl, rfl⟩
        · exact m1
        · exact m2
      · rcases hor with ⟨rfl, rfl⟩ | ⟨rfl, rfl⟩
        · exact m2
        · exact m1

theorem removeBridge_spec {s : GMap K} (hM : MapOK s) (hi : s.initialized) (h : Hooks K) {d : Int} (hd : s.liveD d)
    (hb : s.left? d = s.left? (-d)) (hn : s.startN? d ≠ s.startN? (-d)) (hcyc : s.phiReach d (-d)) :
    ∃ f F e s2 t, s.left? d = some f ∧ s.face f = some F ∧ s.edge d.natAbs = some e ∧
      s.removeBridge h d = (if h.preRemoveBridge s d then .ok (some f, t) else .ok (none, s)) ∧
      BridgeResult h s d f F e s2 t := by
  obtain ⟨π, hg⟩ := hM.graph.exists_rep
  obtain ⟨ψ, hc⟩ := (hM.contours hi).exists_rep hg
  have hdL : d ∈ s.darts := (hg.live d).mpr hd
  obtain ⟨e, he⟩ := liveD_exists hd
  have he' : s.edge (-d).natAbs = some e := by simpa using he
  obtain ⟨f, gl, hF, -⟩ := hc.lefts d hdL
  obtain ⟨F, hF⟩ := Option.isSome_iff_exists.mp hF
  have C : BridgeCtx s π ψ d f F e := by
    refine ⟨hg, hc, hdL, he, gl, by rw [← hb, gl], hF, ?_, (hc.rep.sameCycle_iff hdL).mpr hcyc⟩
    rw [startN?_of he, startN?_of he', e.startOf_neg (hg.ne_zero hdL)] at hn
    exact fun e' => hn (by rw [e'])
  have cl := hc.faces f F hF
  obtain ⟨i, a, hfind, hia, hac⟩ := findComponentAnchor_eq hc.rep hg.card_le (fun a ha => (cl.left a ha).1) (cl.cover d hdL gl)
  obtain ⟨hilt, hia'⟩ := List.getElem?_eq_some_iff.mp hia
  obtain ⟨s1, s2, dd1, dd2, hs2, G, SL, P, O⟩ := hg.remove hdL he
  obtain ⟨nd1, hnd1⟩ := C.node1
  obtain ⟨nd2, hnd2⟩ := C.node2
  have hs2n : ∀ {m : Nat} {x}, s.node m = some x → ∃ md, s2.node m = some md := by
    intro m x hm
    have := P m
    rw [hm] at this
    cases h2 : s2.node m with
    | none => simp [h2] at this
    | some md => exact ⟨md, rfl⟩
  obtain ⟨md1, hmd1⟩ := hs2n hnd1
  obtain ⟨md2, hmd2⟩ := hs2n hnd2
  have q : s2.nNodes = s.nNodes ∧ s2.nEdges = s.nEdges ∧ s2.face = s.face ∧ s2.edge = s.edge := by
    obtain ⟨_, _, _, rfl⟩ := hs2; exact ⟨rfl, rfl, rfl, rfl⟩
  have lt1 : e.startOf d < s2.nNodes := by rw [q.1]; exact hg.labels.node_lt _ (by simp [hnd1])
  have lt2 : e.endOf d < s2.nNodes := by rw [q.1]; exact hg.labels.node_lt _ (by simp [hnd2])
  have hphi : Rep (eraseEdge s.darts d) s2.phi s2.phiInv (phiRemoved ψ d) :=
    hg.rep.phi_remove hg.symm hc.rep hdL rfl C.h0 G.rep
  have hlive : ∀ x ∈ eraseEdge s.darts d, s2.liveD x := by
    intro x hx
    have := (hg.live x).mp (mem_eraseEdge.mp hx).2.2
    unfold GMap.liveD at this ⊢
    rw [q.2.2.2]; exact this
  obtain ⟨rm1, rm2, as, hup, hr1, hr2, hperm, hlist⟩ := bridgeUpdate_eq C h hphi hlive q.2.1 hmd1 hmd2 lt1 lt2 hilt
  have hA : F.anchors.Perm (a :: F.anchors.eraseIdx i) := by
    have := List.getElem_cons_eraseIdx_perm hilt
    rw [hia'] at this
    exact this.symm
  have t1 : rm1 = true → s.sigma d = d := by
    intro h'; rw [h'] at hr1
    have := hr1.symm
    simp at this; exact this.1
  have t2 : rm2 = true → s.sigma (-d) = -d := by
    intro h'; rw [h'] at hr2
    have := hr2.symm
    simp at this; exact this.1
  have hL : (bridgeState s2 d.natAbs rm1 rm2 (e.startOf d) (e.endOf d) f F as).left? = (s2.uninitEdge d.natAbs).left? := by
    unfold bridgeState; cases rm1 <;> cases rm2 <;> rfl
  have hS : (bridgeState s2 d.natAbs rm1 rm2 (e.startOf d) (e.endOf d) f F as).startN? = (s2.uninitEdge d.natAbs).startN? := by
    unfold bridgeState; cases rm1 <;> cases rm2 <;> rfl
  have hFc : (bridgeState s2 d.natAbs rm1 rm2 (e.startOf d) (e.endOf d) f F as).face =
      Function.update s.face f (some { F with anchors := as }) := by
    rw [← q.2.2.1]
    unfold bridgeState; cases rm1 <;> cases rm2 <;> rfl
  have hG := C.graph q.2.2.1 G (fun x hx => (SL x hx).1) hmd1 hmd2 as t1 t2
  have hC := C.contours hFc (fun x hx => by rw [hL]; exact (SL x hx).2) hG.rep hA hac hperm
  refine ⟨f, F, e, s2, bridgeState s2 d.natAbs rm1 rm2 (e.startOf d) (e.endOf d) f F as, gl, hF, he, ?_,
    hs2, ⟨rm1, rm2, as, rfl, hr1, hr2⟩, P, O, ?_, fun x hx => by rw [hL, hS]; exact SL x hx, ?_, ?_⟩
  · unfold GMap.removeBridge
    rw [guaranteedEdge_of he]
    simp only [bind, Outcome.bind_ok, C.el, C.er]
    rw [derefFace_of hg.labels hF]
    simp only [Outcome.bind_ok, ne_eq, not_true, if_false]
    rw [derefNode_of hg.labels hnd1, Outcome.bind_ok, derefNode_of hg.labels hnd2, Outcome.bind_ok, if_neg C.n12]
    by_cases hk : h.preRemoveBridge s d = true
    · rw [if_pos hk, if_neg (by simpa using hk), hfind, Outcome.bind_ok, dd1, Outcome.bind_ok, dd2, Outcome.bind_ok, C.pa1, C.pa2]
      exact hup
    · rw [if_neg hk, if_pos (by simpa using hk)]
  · intro π' ψ' hg' hc'
    rw [← hg.rep.unique hg'.rep, ← hc.rep.unique hc'.rep]
    exact ⟨hG, hC⟩
  · exact MapOK.of_reps hG fun _ => ⟨_, hC⟩
  · intro π' ψ' hg' hc'
    rw [← hc.rep.unique hc'.rep]
    exact ⟨i, a, as, hia, hac, hFc, hlist⟩

/-- precondition violations of `removeBridge` on a consistent map -/
theorem removeBridge_precond {s : GMap K} (hM : MapOK s) (hi : s.initialized) (h : Hooks K) {d : Int}
    (hp : ¬ s.liveD d ∨ s.left? d ≠ s.left? (-d) ∨ s.startN? d = s.startN? (-d)) :
    s.removeBridge h d = .precond := by
  unfold GMap.removeBridge
  by_cases hd : s.liveD d
  swap
  · rw [guaranteedEdge_dead hd]; rfl
  obtain ⟨π, hg⟩ := hM.graph.exists_rep
  obtain ⟨ψ, hc⟩ := (hM.contours hi).exists_rep hg
  have hdL : d ∈ s.darts := (hg.live d).mpr hd
  have h0 := hg.ne_zero hdL
  obtain ⟨e, he⟩ := liveD_exists hd
  have he' : s.edge (-d).natAbs = some e := by simpa using he
  obtain ⟨f, gl, hF, -⟩ := hc.lefts d hdL
  obtain ⟨F, hF⟩ := Option.isSome_iff_exists.mp hF
  obtain ⟨f', gl', hF', -⟩ := hc.lefts (-d) (hg.symm d hdL)
  obtain ⟨F', hF'⟩ := Option.isSome_iff_exists.mp hF'
  obtain ⟨n, k1, k2, -⟩ := hg.starts d hdL
  obtain ⟨nd, hnd⟩ := Option.isSome_iff_exists.mp k2
  obtain ⟨n', k1', k2', -⟩ := hg.starts (-d) (hg.symm d hdL)
  obtain ⟨nd', hnd'⟩ := Option.isSome_iff_exists.mp k2'
  rw [guaranteedEdge_of he]
  rw [gl, gl', k1, k1'] at hp
  rw [left?_of he] at gl
  rw [left?_of he', e.leftOf_neg h0] at gl'
  rw [startN?_of he] at k1
  rw [startN?_of he', e.startOf_neg h0] at k1'
  simp only [bind, Outcome.bind_ok, gl, gl', derefFace_of hg.labels hF, derefFace_of hg.labels hF']
  by_cases hff : f = f'
  · subst hff
    simp only [ne_eq, not_true, if_false, Option.some.inj k1, Option.some.inj k1', derefNode_of hg.labels hnd,
      derefNode_of hg.labels hnd', Outcome.bind_ok]
    rw [if_pos]
    rcases hp with hp | hp | hp
    · exact absurd hd hp
    · exact absurd rfl hp
    · exact Option.some.inj hp
  · rw [if_pos (by simpa using hff)]

end

end Verif.GeoMap
