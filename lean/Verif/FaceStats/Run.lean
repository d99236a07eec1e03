import Verif.FaceStats.Steps

/-! # Every operation keeps the invariant of the statistics -/

set_option linter.unusedSectionVars false

namespace Verif.FaceStats
open Verif Verif.GeoMap Verif.LabelImage

variable {K V : Type} [Field K] [LinearOrder K] [IsStrictOrderedRing K] [FloorRing K]

/-- The state in which merging two faces writes through a null pointer. -/
def LastMark (st : Stats V) (sl ml : Nat) : Prop := st.marked sl ∧ ¬ st.marked ml ∧ st.count = 1

/-- Operations that tell the statistics nothing. -/
theorem SInv.quiet {env : Env K V} {m n : LMap K} {st : Stats V} (hS : SInv env m st) (hn : LReach n) (hN : n.g.nFaces = m.g.nFaces)
    (hf : ∀ f, (n.g.face f).isSome = (m.g.face f).isSome) (hv : ∀ f, faceValues env.orig n f = faceValues env.orig m f) : SInv env n st := by
  refine ⟨hn, by rw [hN]; exact hS.size, fun f => by rw [hf]; exact hS.fn f, ?_, fun f h1 h2 => ?_⟩
  · have := hS.count
    unfold CountOK at this ⊢
    cases hs : st.ss with
    | none => rw [hs] at this; exact this
    | some t =>
      rw [hs] at this
      simp only at this ⊢
      rw [this]
      unfold markCount
      rw [hN]
      congr 1
      exact Finset.filter_congr fun f _ => by rw [hf]
  · rw [hv]
    exact hS.values f (by rw [← hf]; exact h1) h2

theorem values_same {m n : LMap K} {im im' : Img} (hI : Inv m im) (hn : Inv n im') (hw : n.w = m.w) (hh : n.h = m.h)
    (h : ∀ p, InImage m.w m.h p → own im' n.lut p = own im m.lut p) (orig : Int × Int → V) (f : Nat) :
    faceValues orig n f = faceValues orig m f := by
  rw [values_eq hI, values_eq hn, hw, hh]
  exact Finset.sum_congr rfl fun p hp => by rw [h p (mem_image.mp hp)]

theorem SInv.scratch {env : Env K V} {m : LMap K} {st : Stats V} (hS : SInv env m st) (a b : Nat) (x : Multiset V) (s : Nat) :
    SInv env m { st with label1 := a, label2 := b, merged := x, mergedSS := s } :=
  ⟨hS.reach, hS.size, hS.fn, hS.count, hS.values⟩

theorem mergeFaces_step {env : Env K V} (hb : BoxesCover env) {m : LMap K} {st : Stats V} (hS : SInv env m st) (h : Hooks K) (asked : Bool)
    (d : Int) :
    (m.mergeFaces h d = .precond ∧ mergeFaces env h asked m st d = .precond) ∨
    (∃ n px, m.mergeFaces h d = .ok (none, n, px) ∧ ∃ st', mergeFaces env h asked m st d = .ok (n, st') ∧ SInv env n st') ∨
    ∃ sl ml n px, m.mergeFaces h d = .ok (some sl, n, px) ∧ sl ≠ ml ∧
      ((m.g.left? d = some sl ∧ m.g.left? (-d) = some ml) ∨ (m.g.left? d = some ml ∧ m.g.left? (-d) = some sl)) ∧
      ((LastMark st sl ml ∧ mergeFaces env h asked m st d = .ub) ∨
       (¬ LastMark st sl ml ∧ ∃ st', mergeFaces env h asked m st d = .ok (n, st') ∧ SInv env n st')) := by
  obtain ⟨im, hI⟩ := hS.reach.inv
  have hrun : ∀ n, (m.mergeFaces h d).map (·.2.1) = .ok n → LReach n := fun n e =>
    .call h (.mergeFaces d) hS.reach trivial trivial e
  rcases mergeFaces_inv hI h d with ⟨-, e⟩ | ⟨g, e0, e, hI'⟩ | ⟨sl, ml, g, n, px, im', e0, e, E, hpix, hn, hR⟩
  · refine Or.inl ⟨e, ?_⟩
    unfold mergeFaces
    cases hge : m.g.guaranteedEdge d with
    | ok ed => simp [e, bind]
    | precond => simp [bind]
    | ub => unfold GMap.guaranteedEdge at hge; split at hge <;> cases hge
    | hang => unfold GMap.guaranteedEdge at hge; split at hge <;> cases hge
  · right; left
    have hg := e0
    unfold GMap.mergeFaces at hg
    obtain ⟨ed, hed, -⟩ := Outcome.bind_eq_ok.mp hg
    have hed' := hed
    unfold GMap.guaranteedEdge at hed'
    cases hce : m.g.edge d.natAbs with
    | none => simp [hce] at hed'
    | some ed2 =>
      have d0 : d ≠ 0 := by
        rintro rfl
        rw [Int.natAbs_zero, hI.good.map.graph.labels.edge_zero] at hce
        cases hce
      obtain ⟨a, b, hsd, hab, -, hlr⟩ := removedSides_of d0 hed e0
      have hn : LReach { m with g := g } := hrun _ (by rw [e]; rfl)
      have hA := mergeFaces_vetoed hI.good.map e0
      have hsome : ∀ f, (g.face f).isSome = (m.g.face f).isSome := by
        intro f
        rcases hA.faces f with h1 | ⟨F, a1, a2, a3⟩
        · rw [h1]
        · rw [a1, a3]; rfl
      have hlive : ∀ x f, x.natAbs = d.natAbs → ed.leftOf x = some f → (m.g.face f).isSome = true := by
        intro x f hx hf
        have hce' : m.g.edge d.natAbs = some ed := by
          rw [guaranteedEdge_of hce] at hed; rw [hce]; cases hed; rfl
        have hlx : m.g.left? x = ed.leftOf x := left?_of (by rw [hx]; exact hce')
        obtain ⟨f', F, q1, q2⟩ := (hI.good.map.contours hI.init).face_live x (liveD_edge (by rw [hx]; exact hce'))
        rw [hlx, hf] at q1
        cases q1
        rw [q2]; rfl
      have hla : (m.g.face a).isSome = true ∧ (m.g.face b).isSome = true := by
        rcases hlr with ⟨h1, h2⟩ | ⟨h1, h2⟩
        · exact ⟨hlive d a rfl h1, hlive (-d) b (by simp) h2⟩
        · exact ⟨hlive (-d) a (by simp) h2, hlive d b rfl h1⟩
      have hq : ∀ st' : Stats V, SInv env m st' → SInv env { m with g := g } st' := fun st' hS' => by
        refine hS'.quiet hn ?_ hsome (fun f => ?_)
        · obtain ⟨face', hf'⟩ := hA.eq
          show g.nFaces = m.g.nFaces
          rw [hf']
        · exact values_same hI hI' rfl rfl (fun _ _ => rfl) _ _
      refine ⟨_, _, e, ?_⟩
      unfold mergeFaces
      simp only [hed, e, hsd, bind, Outcome.bind_ok]
      cases asked with
      | false => exact ⟨st, by simp, hq st hS⟩
      | true =>
        obtain ⟨x, s, hpre, -⟩ := preMerge_spec hb hS hla.1 hla.2
        simp only [if_true, hpre, Outcome.bind_ok]
        exact ⟨_, rfl, hq _ (hS.scratch a b x s)⟩
  · right; right
    have hg := e0
    unfold GMap.mergeFaces at hg
    obtain ⟨ed, hed, -⟩ := Outcome.bind_eq_ok.mp hg
    have hce : m.g.edge d.natAbs = some ed := by
      have hed' := hed
      unfold GMap.guaranteedEdge at hed'
      cases hc : m.g.edge d.natAbs with
      | none => simp [hc] at hed'
      | some x => simp [hc] at hed'; rw [hed']
    have d0 : d ≠ 0 := by
      rintro rfl
      rw [Int.natAbs_zero, hI.good.map.graph.labels.edge_zero] at hce
      cases hce
    obtain ⟨a, b, hsd, hab, hr, hlr⟩ := removedSides_of d0 hed e0
    have hasl : a = sl := by
      rcases hr with h1 | h1
      · cases h1
      · exact (Option.some.inj h1).symm
    subst hasl
    have hbml : b = ml := by
      have h1 : m.g.left? d = ed.leftOf d := left?_of hce
      have h2 : m.g.left? (-d) = ed.leftOf (-d) := left?_of (by simpa using hce)
      have hs := E.sides
      rw [h1, h2] at hs
      have hne := E.distinct.1
      rcases hlr with ⟨q1, q2⟩ | ⟨q1, q2⟩ <;> rw [q1, q2] at hs <;> simp only [Option.some.injEq] at hs <;> omega
    subst hbml
    refine ⟨a, b, n, px, e, hab, E.sides, ?_⟩
    have hnr : LReach n := hrun _ (by rw [e]; rfl)
    obtain ⟨S, M, T, hFS, hFM, hFT, hTa⟩ := E.areas
    have hla : (m.g.face a).isSome = true := by rw [hFS]; rfl
    have hlb : (m.g.face b).isSome = true := by rw [hFM]; rfl
    have hnF : n.g.nFaces = m.g.nFaces := by
      obtain ⟨face', hf'⟩ := hpix.eq
      rw [hf']; exact E.sizes.2.2
    have hlive : ∀ k, (n.g.face k).isSome = true ↔ (m.g.face k).isSome = true ∧ k ≠ b := by
      intro k
      rw [hpix.isSome]
      by_cases hk : k = b
      · subst hk; rw [E.face_gone.2]; simp
      · by_cases hk2 : k = a
        · subst hk2; rw [hFT, hFS]; simp [hk]
        · rw [E.faces k hk2 hk]; simp [hk]
    obtain ⟨hvs, hvo⟩ := values_merge hI hn hab hR env.orig
    obtain ⟨x, s, hpre, hx1, hx2⟩ := preMerge_spec hb hS hla hlb
    have hna : (n.g.face a).isSome = true := (hlive a).mpr ⟨hla, hab⟩
    have halt : a < st.size := by rw [hS.size]; exact face_lt hS.reach hla
    have hcard : (faceValues env.orig m a + faceValues env.orig m b).card = pixelArea m.g a + pixelArea m.g b := by
      rw [Multiset.card_add, values_card hS.reach _ hla, values_card hS.reach _ hlb]
    obtain ⟨ya, -, hya⟩ := hS.functor hla
    have hF : ∀ ss c x s l1 l2, (Stats.mk st.minCount st.size st.fn ss c x s l1 l2).functor a = .ok ya := fun _ _ _ _ _ _ => hya
    -- the functors after `postMerge`
    have hfn : ∀ f, ((Function.update (Function.update st.fn a (some x)) b none) f).isSome = (n.g.face f).isSome := by
      intro f
      by_cases hfb : f = b
      · subst hfb
        rw [Function.update_self, hpix.isSome, E.face_gone.2]
        rfl
      · rw [Function.update_of_ne hfb]
        by_cases hfa : f = a
        · subst hfa; rw [Function.update_self, hna]; rfl
        · rw [Function.update_of_ne hfa, hS.fn f, hpix.isSome, E.faces f hfa hfb]
    have hupa : (Function.update (Function.update st.fn a (some x)) b none) a = some x := by
      rw [Function.update_of_ne hab, Function.update_self]
    have hupo : ∀ f, f ≠ a → (n.g.face f).isSome = true → (Function.update (Function.update st.fn a (some x)) b none) f = st.fn f := by
      intro f hfa hf
      rw [Function.update_of_ne ((hlive f).mp hf).2, Function.update_of_ne hfa]
    unfold mergeFaces
    simp only [hed, e, hsd, bind, Outcome.bind_ok, hpre]
    cases hss : st.ss with
    | none =>
      right
      refine ⟨fun hL => not_marked_none hss a hL.1, ?_⟩
      have hxv := hx1 hss
      set st1 : Stats V := { st with
        label1 := a
        label2 := b
        merged := x
        mergedSS := s
        ss := none
        fn := Function.update (Function.update st.fn a (some x)) b none } with hst1
      have hss1 : st1.ss = none := rfl
      have hpost : postMerge { st with label1 := a, label2 := b, merged := x, mergedSS := s } a (pixelArea m.g a + pixelArea m.g b) = .ok st1 := by
        unfold postMerge
        simp only [hF, bind, Outcome.bind_ok, hss, if_true]
        refine check_ok (a := x) ?_ (fun _ => by rw [hxv, hcard])
        unfold Stats.functor
        simp only [hupa, if_pos halt]
      rw [hss] at hpost
      rw [hpost]
      simp only [Outcome.bind_ok]
      obtain ⟨st', h1, h2⟩ := associated_spec hb hnr hna (px := px) (st := st1) (by rw [hnF]; exact hS.size) hfn
        (by
          have := hS.count
          unfold CountOK at this ⊢
          rw [hss] at this
          rw [hss1]
          exact this)
        (fun f hfa hf hm => by
          have hf' := (hlive f).mp hf
          show (Function.update (Function.update st.fn a (some x)) b none) f = _
          rw [hupo f hfa hf, hvo f hfa hf'.2]
          exact hS.values f hf'.1 (not_marked_none hss f))
        hvs (fun _ => by show (Function.update (Function.update st.fn a (some x)) b none) a = _; rw [hupa, hxv])
      rw [h1]
      exact ⟨st', rfl, h2⟩
    | some t =>
      obtain ⟨hx0, hx1', hx2'⟩ := hx2 t hss
      have hcnt : st.count = markCount m.g t := by
        have := hS.count
        unfold CountOK at this
        rw [hss] at this
        exact this
      have hLM : LastMark st a b ↔ t a ≠ 0 ∧ t b = 0 ∧ markCount m.g t = 1 := by
        unfold LastMark
        rw [marked_some hss, marked_some hss, hcnt]
        simp
      have hpm := postMarks_spec (s := s) hla (face_lt hS.reach hla) hlb (face_lt hS.reach hlb) hab hnF hlive hx1' hx2'
      rcases hpm with ⟨p1, p2, p3, hub⟩ | ⟨hnl, ss, hok, hsso⟩
      · left
        refine ⟨hLM.mpr ⟨p1, p2, p3⟩, ?_⟩
        unfold postMerge
        simp only [hF, bind, Outcome.bind_ok, if_true, hcnt, hub]
        rfl
      · right
        refine ⟨fun hL => hnl (hLM.mp hL), ?_⟩
        set st1 : Stats V := { st with
          label1 := a
          label2 := b
          merged := x
          mergedSS := s
          ss := ss
          count := markCount n.g (Function.update t a s)
          fn := Function.update (Function.update st.fn a (some x)) b none } with hst1
        have hmk : ∀ f, (n.g.face f).isSome = true → (st1.marked f ↔ Function.update t a s f ≠ 0) := by
          intro f hf
          rcases hsso with ⟨h1, h2⟩ | h1
          · constructor
            · intro hm; exact absurd hm (not_marked_none (st := st1) h1 f)
            · intro hm
              have := markCount_pos hf (face_lt hnr hf) hm
              omega
          · exact marked_some (st := st1) h1 f
        have hpost : postMerge { st with label1 := a, label2 := b, merged := x, mergedSS := s } a (pixelArea m.g a + pixelArea m.g b) = .ok st1 := by
          unfold postMerge
          simp only [hF, bind, Outcome.bind_ok, hss, if_true, hcnt, hok]
          refine check_ok (a := x) ?_ (fun hm => ?_)
          · unfold Stats.functor
            simp only [hupa, if_pos halt]
          · have : Function.update t a s a = 0 := by
              by_contra h0
              exact hm ((hmk a hna).mpr h0)
            rw [Function.update_self] at this
            rw [hx0 this, hcard]
        rw [hss] at hpost
        rw [hpost]
        simp only [Outcome.bind_ok]
        obtain ⟨st', h1, h2⟩ := associated_spec hb hnr hna (px := px) (st := st1) (by rw [hnF]; exact hS.size) hfn
          (by
            unfold CountOK
            rcases hsso with ⟨h1, h2⟩ | h1
            · rw [show st1.ss = none from h1]; exact h2
            · rw [show st1.ss = some _ from h1])
          (fun f hfa hf hm => by
            have hf' := (hlive f).mp hf
            show (Function.update (Function.update st.fn a (some x)) b none) f = _
            rw [hupo f hfa hf, hvo f hfa hf'.2]
            refine hS.values f hf'.1 ?_
            rw [hmk f hf, Function.update_of_ne hfa] at hm
            rw [marked_some hss]
            exact hm)
          hvs (fun hm => by
            show (Function.update (Function.update st.fn a (some x)) b none) a = _
            rw [hmk a hna, Function.update_self] at hm
            rw [hupa, hx0 (by simpa using hm)])
        rw [h1]
        exact ⟨st', rfl, h2⟩

theorem removeBridge_step {env : Env K V} (hb : BoxesCover env) {m : LMap K} {st : Stats V} (hS : SInv env m st) (h : Hooks K) (d : Int) :
    (m.removeBridge h d = .precond ∧ removeBridge env h m st d = .precond) ∨
    ∃ r n px, m.removeBridge h d = .ok (r, n, px) ∧ ∃ st', removeBridge env h m st d = .ok (n, st') ∧ SInv env n st' := by
  obtain ⟨im, hI⟩ := hS.reach.inv
  have hrun : ∀ n, (m.removeBridge h d).map (·.2.1) = .ok n → LReach n := fun n e =>
    .call h (.removeBridge d) hS.reach trivial trivial e
  rcases removeBridge_inv hI h d with ⟨-, e⟩ | ⟨g, e0, e, hI'⟩ | ⟨f, g, n, px, im', e0, e, hpix, hn, hR⟩
  · refine Or.inl ⟨e, ?_⟩
    unfold removeBridge
    simp [e, bind]
  · right
    refine ⟨_, _, _, e, st, ?_, ?_⟩
    · unfold removeBridge
      simp [e, bind]
    · have := removeBridge_vetoed hI.good e0
      simp only [this]
      exact hS
  · right
    refine ⟨_, _, _, e, ?_⟩
    have hnr : LReach n := hrun _ (by rw [e]; rfl)
    have E := removeBridge_effect hI.good e0
    have hsome : ∀ k, (n.g.face k).isSome = (m.g.face k).isSome := by
      intro k
      rw [hpix.isSome]
      have := congrArg Option.isSome (E.faces k)
      simpa using this
    have hnF : n.g.nFaces = m.g.nFaces := by
      obtain ⟨face', hf'⟩ := hpix.eq
      rw [hf']; exact E.sizes.2.2
    have hlf : (n.g.face f).isSome = true := by
      rw [hsome]
      obtain ⟨f', F, q1, q2⟩ := (hI.good.map.contours hI.init).face_live d E.edge_gone.1
      rw [E.face.1] at q1
      cases q1
      rw [q2]; rfl
    have hv := values_bridge hI hn hR env.orig
    unfold removeBridge
    simp only [e, bind, Outcome.bind_ok]
    obtain ⟨st', h1, h2⟩ := associated_spec hb hnr hlf (px := px) (st := st) (by rw [hnF]; exact hS.size) (fun k => by rw [hsome]; exact hS.fn k)
      (by
        have := hS.count
        unfold CountOK at this ⊢
        cases hs : st.ss with
        | none => rw [hs] at this; exact this
        | some t =>
          rw [hs] at this
          simp only at this ⊢
          rw [this]
          unfold markCount
          rw [hnF]
          congr 1
          exact Finset.filter_congr fun k _ => by rw [hsome])
      (fun k hk hk2 hm => by
        rw [hv k, if_neg hk, add_zero]
        exact hS.values k (by rw [← hsome]; exact hk2) hm)
      (W := faceValues env.orig m f) (by rw [hv f, if_pos rfl])
      (fun hm => hS.values f (by rw [← hsome]; exact hlf) hm)
    rw [h1]
    exact ⟨st', rfl, h2⟩

end Verif.FaceStats
