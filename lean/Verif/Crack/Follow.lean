import Verif.Crack.Mark
import Mathlib.Data.Finset.Card
import Mathlib.Data.Finset.Dedup
import Mathlib.Tactic.Ring

/-! # Following an edge -/

set_option linter.unusedSectionVars false

namespace Verif.Crack
open Verif Verif.GeoMap

/-- a directed crack: corner and direction -/
abbrev Dart := Pos × Dir

/-- the same crack in the other direction -/
def al (δ : Dart) : Dart := (δ.1 + δ.2.diff, δ.2.opp)

theorem prop1 {a b c : Prop} : ((¬ c ∧ ¬ a) ∧ ¬ b) ↔ ¬ (a ∨ b ∨ c) := by tauto
theorem prop2 {a b c d e : Prop} : (a ∨ (b ∨ c) ∨ d ∨ e) ↔ (d ∨ b ∨ a) ∨ c ∨ e := by tauto

theorem al_al (δ : Dart) : al (al δ) = δ := by
  obtain ⟨⟨a, b⟩, x⟩ := δ
  cases x <;> simp [al, Dir.diff, Dir.opp]

theorem al_fst_ne (δ : Dart) : (al δ).1 ≠ δ.1 := by
  obtain ⟨⟨a, b⟩, x⟩ := δ
  cases x <;> simp [al, Dir.diff]

theorem al_ne (δ : Dart) : al δ ≠ δ := fun h => al_fst_ne δ (by rw [h])

/-- what is needed of the marked image -/
structure CrackGraph (w h : Nat) (c0 : Pos → Conn) : Prop where
  valid : ∀ p, (c0 p).valid = true
  inside : ∀ p x, (c0 p).has x = true → inside w h p
  sym : ∀ p x, (c0 p).has x = true → (c0 (p + x.diff)).has x.opp = true

/-- the cracks -/
def IsD (c0 : Pos → Conn) (δ : Dart) : Prop := (c0 δ.1).has δ.2 = true

theorem CrackGraph.al {w h : Nat} {c0 : Pos → Conn} (G : CrackGraph w h c0) {δ : Dart} (hd : IsD c0 δ) : IsD c0 (al δ) :=
  G.sym _ _ hd

/-- A corner that may be passed: its pixel `c`, and the directed cracks `V` used so far. -/
structure Ready (c0 : Conn) (V : Finset Dart) (c : Conn) (p : Pos) : Prop where
  ul : c.ul = c0.ul
  ur : c.ur = c0.ur
  node : c.node = c0.node
  closed : ∀ x, c0.has x = true → ((p, x) ∈ V ↔ (p, c0.tau x) ∈ V)
  has : c0.diag = false → ∀ x, c.has x = c0.has x
  hasD : c0.diag = true → ∀ x, c.has x = true ↔ (p, x) ∉ V
  maybe : c.maybe = true ↔ c0.maybe = true ∧ ∃ x, c0.has x = true ∧ (p, x) ∉ V

theorem Ready.diag {c0 c : Conn} {V : Finset Dart} {p : Pos} (h : Ready c0 V c p) : c.diag = c0.diag := by
  unfold Conn.diag; rw [h.ul, h.ur]

/-- a corner other than the start of the edge -/
def CornerOK (c0 : Pos → Conn) (started : Pos → Prop) (V : Finset Dart) (cc : CImg) (p : Pos) : Prop :=
  ((c0 p).node = true → cc.get p = c0 p) ∧
  ((c0 p).node = false → (started p ∧ ∀ x, (c0 p).has x = true → (p, x) ∈ V) ∨ Ready (c0 p) V (cc.get p) p)

theorem CornerOK.congr {c0 : Pos → Conn} {st st' : Pos → Prop} {V V' : Finset Dart} {cc cc' : CImg} {p : Pos} (h : CornerOK c0 st V cc p)
    (hs : st p → st' p) (hc : cc'.get p = cc.get p) (hV : ∀ x, (p, x) ∈ V' ↔ (p, x) ∈ V) : CornerOK c0 st' V' cc' p := by
  refine ⟨fun hn => by rw [hc]; exact h.1 hn, fun hn => ?_⟩
  rcases h.2 hn with ⟨h1, h2⟩ | h1
  · exact .inl ⟨hs h1, fun x hx => (hV x).mpr (h2 x hx)⟩
  · right
    rw [hc]
    exact ⟨h1.ul, h1.ur, h1.node, fun x hx => by rw [hV, hV]; exact h1.closed x hx, h1.has, fun hd x => by rw [hV]; exact h1.hasD hd x,
      by simp only [hV]; exact h1.maybe⟩

/-- passing a corner -/
theorem Ready.step {c0 c c' : Conn} {V : Finset Dart} {p : Pos} (h : Ready c0 V c p) (hv : c0.valid = true) (hn : c0.node = false) {m : Dir}
    (hm : c0.has m = true)
    (h1 : c'.ul = c.ul) (h2 : c'.ur = c.ur) (h3 : c'.node = c.node)
    (h4 : c0.diag = false → ∀ x, c'.has x = c.has x)
    (h5 : c0.diag = true → ∀ x, c'.has x = (c.has x && decide (x ≠ m) && decide (x ≠ c0.tau m)))
    (h6 : c0.diag = false → c'.maybe = false)
    (h7 : c0.diag = true → (c'.maybe = true ↔ c.maybe = true ∧ ∃ x, c'.has x = true)) :
    Ready c0 (insert (p, m) (insert (p, c0.tau m) V)) c' p := by
  have key : ∀ x, c0.has x = true → ((p, x) ∈ insert (p, m) (insert (p, c0.tau m) V) ↔ x = m ∨ x = c0.tau m ∨ (p, x) ∈ V) := by
    intro x _
    simp
  refine ⟨h1.trans h.ul, h2.trans h.ur, h3.trans h.node, ?_, fun hd x => by rw [h4 hd, h.has hd], ?_, ?_⟩
  · intro x hx
    rw [key x hx, key _ (tau_has c0 hv hn x hx), ← h.closed x hx]
    have e1 : c0.tau x = m ↔ x = c0.tau m :=
      ⟨fun e => by rw [← e, tau_tau c0 hv hn x hx], fun e => by rw [e, tau_tau c0 hv hn m hm]⟩
    have e2 : c0.tau x = c0.tau m ↔ x = m :=
      ⟨fun e => by rw [← tau_tau c0 hv hn x hx, e, tau_tau c0 hv hn m hm], fun e => by rw [e]⟩
    rw [e1, e2]
    exact or_left_comm
  · intro hd x
    have hx := diag_has c0 hv hd x
    rw [key x hx, h5 hd x]
    simp only [Bool.and_eq_true, decide_eq_true_eq, h.hasD hd x]
    exact prop1
  · by_cases hd : c0.diag = true
    · rw [h7 hd, h.maybe]
      have : ∀ x, c'.has x = true ↔ c0.has x = true ∧ (p, x) ∉ insert (p, m) (insert (p, c0.tau m) V) := by
        intro x
        have hx := diag_has c0 hv hd x
        rw [key x hx, h5 hd x]
        simp only [Bool.and_eq_true, decide_eq_true_eq, h.hasD hd x, hx, true_and]
        exact prop1
      constructor
      · rintro ⟨⟨a, _⟩, x, hx⟩
        exact ⟨a, x, (this x).mp hx⟩
      · rintro ⟨a, x, hx, hx'⟩
        exact ⟨⟨a, x, hx, fun hc => hx' (Finset.mem_insert_of_mem (Finset.mem_insert_of_mem hc))⟩, x, (this x).mpr ⟨hx, hx'⟩⟩
    · have hd' : c0.diag = false := by simpa using hd
      constructor
      · intro hc
        rw [h6 hd'] at hc
        cases hc
      · rintro ⟨_, x, hx, hx'⟩
        exfalso
        apply hx'
        rw [key x hx]
        rcases tau_two c0 hv hn hd' m hm x hx with e | e
        · exact .inl e
        · exact .inr (.inl e)

section
variable {K : Type} [Field K] [LinearOrder K]

theorem vec_step (p : Pos) (x : Dir) : (vec p : Pt K) + dirVec x = vec (p + x.diff) := by
  obtain ⟨a, b⟩ := p
  cases x <;> ext <;> simp [vec, dirVec, Dir.diff] <;> ring

/-- all directed cracks of the image -/
def allDarts (w h : Nat) : Finset Dart :=
  ((raster w h).flatMap fun p => [(p, .E), (p, .N), (p, .W), (p, .S)]).toFinset

theorem mem_allDarts {w h : Nat} {δ : Dart} : δ ∈ allDarts w h ↔ inside w h δ.1 := by
  obtain ⟨p, x⟩ := δ
  simp only [allDarts, List.mem_toFinset, List.mem_flatMap, mem_raster]
  constructor
  · rintro ⟨q, hq, h⟩
    simp only [List.mem_cons, Prod.mk.injEq, List.not_mem_nil, or_false] at h
    rcases h with h | h | h | h <;> (rw [h.1]; exact hq)
  · intro h
    exact ⟨p, h, by cases x <;> simp⟩

theorem card_allDarts (w h : Nat) : (allDarts w h).card ≤ 4 * ((w + 1) * (h + 1)) := by
  refine le_trans (List.toFinset_card_le _) ?_
  have : (raster w h).length = (w + 1) * (h + 1) := by
    simp [raster, List.length_flatMap]
    ring
  rw [← this]
  generalize raster w h = L
  induction L with
  | nil => simp
  | cons a L ih =>
    rw [List.flatMap_cons, List.length_append]
    simp only [List.length_cons, List.length_nil]
    omega

/-- consecutive directed cracks of an edge -/
def Next (c0 : Pos → Conn) (start : Pos) (a b : Dart) : Prop :=
  b = ((al a).1, (c0 (al a).1).tau (al a).2) ∧ (c0 (al a).1).node = false ∧ (al a).1 ≠ start

/-- the outcome of following an edge -/
structure FollowedOK (c0 : Pos → Conn) (started : Pos → Prop) (start : Pos) (cc : CImg) (V : Finset Dart) (δ : Dart) (ds : List Dart)
    (cc' : CImg) (fin : Dart) : Prop where
  chain : List.IsChain (Next c0 start) (δ :: ds)
  last : ∃ z, (δ :: ds).getLast? = some z ∧ al z = fin
  stop : fin.1 = start ∨ (c0 fin.1).node = true
  keep : cc'.get start = cc.get start
  corner : ∀ p, p ≠ start → CornerOK c0 started (V ∪ (ds ++ (δ :: ds).map al).toFinset) cc' p
  nodup : (ds ++ (δ :: ds).map al).Nodup
  fresh : ∀ ε ∈ ds ++ (δ :: ds).map al, ε ∉ V
  cracks : ∀ ε ∈ ds ++ (δ :: ds).map al, IsD c0 ε

theorem followLoop_spec {w h : Nat} {c0 : Pos → Conn} (G : CrackGraph w h c0) (started : Pos → Prop) (start : Pos) :
    ∀ (n : Nat) (cc : CImg) (V : Finset Dart) (δ : Dart) (pts : List (Pt K)),
      (∀ p, p ≠ start → CornerOK c0 started V cc p) → (∀ ε ∈ V, IsD c0 ε) → δ ∈ V → al δ ∉ V → (∀ ε ∈ V, ε ≠ δ → al ε ∈ V) →
      (allDarts w h).card < n + V.card →
      ∃ ds cc' fin, followLoop w h start n cc δ.1 δ.2 (vec δ.1) pts =
          .ok ⟨cc', fin.1, fin.2, pts ++ (δ :: ds).map fun ε => vec (al ε).1⟩ ∧
        FollowedOK c0 started start cc V δ ds cc' fin := by
  intro n
  induction n with
  | zero =>
    intro cc V δ pts _ hV _ _ _ hn
    exfalso
    have : V ⊆ allDarts w h := fun ε hε => mem_allDarts.mpr (G.inside _ _ (hV ε hε))
    have := Finset.card_le_card this
    omega
  | succ n ih =>
    intro cc V δ pts hcc hV hδ hδ' hal hn
    have hD : IsD c0 δ := hV δ hδ
    have hD' : IsD c0 (al δ) := G.al hD
    have hbreak : (al δ).1 = start ∨ (c0 (al δ).1).node = true → FollowedOK c0 started start cc V δ [] cc (al δ) := by
      intro hs
      refine ⟨List.isChain_singleton _, ⟨δ, rfl, rfl⟩, hs, rfl, ?_, by simp, by simpa using hδ', by simpa using hD'⟩
      intro p hp
      by_cases hpq : p = (al δ).1
      · subst hpq
        rcases hs with hs | hs
        · exact absurd hs hp
        · exact ⟨(hcc _ hp).1, fun hf => by rw [hf] at hs; cases hs⟩
      · refine (hcc p hp).congr id rfl fun x => ?_
        simp only [List.nil_append, List.map_cons, List.map_nil, List.toFinset_cons, List.toFinset_nil, Finset.mem_union, Finset.mem_insert,
          Finset.notMem_empty, or_false]
        constructor
        · rintro (e | e)
          · exact e
          · exact absurd (by rw [← e]) hpq
        · exact .inl
    unfold followLoop
    simp only [vec_step]
    by_cases hq : δ.1 + δ.2.diff = start
    · rw [if_pos hq]
      exact ⟨[], cc, al δ, rfl, hbreak (.inl hq)⟩
    · rw [if_neg hq]
      have hin : inside w h (δ.1 + δ.2.diff) := G.inside _ _ hD'
      rw [if_neg (not_not.mpr hin)]
      have hq' : (al δ).1 ≠ start := hq
      obtain ⟨k1, k2⟩ := hcc _ hq'
      -- the rest of the edge
      have hstep : ∀ cc1 : CImg, (∀ r, r ≠ (al δ).1 → cc1.get r = cc.get r) → (c0 (al δ).1).node = false →
          Ready (c0 (al δ).1) (insert (al δ) (insert ((al δ).1, (c0 (al δ).1).tau (al δ).2) V)) (cc1.get (al δ).1) (al δ).1 →
          ((al δ).1, (c0 (al δ).1).tau (al δ).2) ∉ V →
          ∃ ds cc' fin, followLoop w h start n cc1 (al δ).1 ((c0 (al δ).1).tau (al δ).2) (vec (al δ).1) (pts ++ [vec (δ.1 + δ.2.diff)]) =
              .ok ⟨cc', fin.1, fin.2, pts ++ (δ :: ds).map fun ε => vec (al ε).1⟩ ∧
            FollowedOK c0 started start cc V δ ds cc' fin := by
        intro cc1 hc1 hnode hready hfresh
        obtain ⟨η, hη⟩ : ∃ η, η = ((al δ).1, (c0 (al δ).1).tau (al δ).2) := ⟨_, rfl⟩
        have hηD : IsD c0 η := by rw [hη]; exact tau_has _ (G.valid _) hnode _ hD'
        have hηne : η ≠ al δ := by
          intro e
          rw [hη] at e
          exact tau_ne _ (G.valid _) hnode _ hD' (congrArg Prod.snd e)
        rw [← hη] at hready hfresh
        have hne1 : al η ≠ al δ := by
          intro e
          have := congrArg al e
          rw [al_al, al_al] at this
          rw [this] at hfresh
          exact absurd hδ hfresh
        have hne2 : al η ≠ η := al_ne η
        have hnV : al η ∉ V := by
          intro hc
          by_cases e : al η = δ
          · apply hηne
            rw [← e, al_al]
          · have := hal _ hc e
            rw [al_al] at this
            exact hfresh this
        obtain ⟨ds, cc', fin, e, R⟩ := ih cc1 (insert (al δ) (insert η V)) η (pts ++ [vec (δ.1 + δ.2.diff)]) (by
            intro p hp
            by_cases hpq : p = (al δ).1
            · subst hpq
              exact ⟨fun hf => absurd (hf.symm.trans hnode) (by simp), fun _ => .inr hready⟩
            · refine (hcc p hp).congr id (hc1 p hpq) fun x => ?_
              simp only [Finset.mem_insert]
              constructor
              · rintro (e | e | e)
                · exact absurd (by rw [← e]) hpq
                · rw [hη] at e
                  exact absurd (congrArg Prod.fst e) hpq
                · exact e
              · exact fun e => .inr (.inr e))
          (by
            intro ε hε
            simp only [Finset.mem_insert] at hε
            rcases hε with rfl | rfl | hε
            · exact hD'
            · exact hηD
            · exact hV ε hε)
          (by simp)
          (by
            simp only [Finset.mem_insert, not_or]
            exact ⟨hne1, hne2, hnV⟩)
          (by
            intro ε hε hne
            simp only [Finset.mem_insert] at hε ⊢
            rcases hε with rfl | rfl | hε
            · rw [al_al]
              exact .inr (.inr hδ)
            · exact absurd rfl hne
            · by_cases e : ε = δ
              · rw [e]
                exact .inl rfl
              · exact .inr (.inr (hal ε hε e)))
          (by
            rw [Finset.card_insert_of_notMem (by simp only [Finset.mem_insert, not_or]; exact ⟨hηne.symm, hδ'⟩),
              Finset.card_insert_of_notMem hfresh]
            omega)
        have hset : ∀ ε, ε ∈ V ∪ ((η :: ds) ++ (δ :: η :: ds).map al).toFinset ↔
            ε ∈ insert (al δ) (insert η V) ∪ (ds ++ (η :: ds).map al).toFinset := by
          intro ε
          simp only [Finset.mem_union, Finset.mem_insert, List.mem_toFinset, List.mem_append, List.mem_cons, List.map_cons]
          exact prop2
        refine ⟨η :: ds, cc', fin, ?_, ?_⟩
        · have h1 : η.1 = (al δ).1 := by rw [hη]
          have h2 : η.2 = (c0 (al δ).1).tau (al δ).2 := by rw [hη]
          rw [h1, h2] at e
          rw [e]
          simp only [List.map_cons, List.append_assoc, List.cons_append, List.nil_append]
          rfl
        · refine ⟨?_, ?_, R.stop, ?_, ?_, ?_, ?_, ?_⟩
          · exact List.IsChain.cons_cons ⟨hη, hnode, hq'⟩ R.chain
          · obtain ⟨z, hz, hz'⟩ := R.last
            exact ⟨z, by rw [List.getLast?_cons_cons]; exact hz, hz'⟩
          · rw [R.keep, hc1 _ (Ne.symm hq')]
          · intro p hp
            exact (R.corner p hp).congr id rfl fun x => hset _
          · have n1 := R.nodup
            have f1 := R.fresh
            rw [List.map_cons]
            have hperm : ((η :: ds) ++ al δ :: (η :: ds).map al).Perm (al δ :: η :: (ds ++ (η :: ds).map al)) := by
              refine List.perm_middle.trans ?_
              simp
            rw [hperm.nodup_iff, List.nodup_cons, List.nodup_cons]
            refine ⟨?_, fun hc => f1 _ hc (by simp), n1⟩
            intro hc
            rcases List.mem_cons.mp hc with hc | hc
            · exact hηne hc.symm
            · exact f1 _ hc (by simp)
          · intro ε hε hc
            have : ε ∈ (al δ :: η :: (ds ++ (η :: ds).map al)) := by
              rw [List.map_cons] at hε
              simp only [List.mem_append, List.mem_cons] at hε ⊢
              rcases hε with (hε | hε) | hε | hε
              · exact .inr (.inl hε)
              · exact .inr (.inr (.inl hε))
              · exact .inl hε
              · exact .inr (.inr (.inr hε))
            rcases List.mem_cons.mp this with rfl | this
            · exact hδ' hc
            · rcases List.mem_cons.mp this with rfl | this
              · exact hfresh hc
              · exact R.fresh ε this (by simp [hc])
          · intro ε hε
            have : ε ∈ (al δ :: η :: (ds ++ (η :: ds).map al)) := by
              rw [List.map_cons] at hε
              simp only [List.mem_append, List.mem_cons] at hε ⊢
              rcases hε with (hε | hε) | hε | hε
              · exact .inr (.inl hε)
              · exact .inr (.inr (.inl hε))
              · exact .inl hε
              · exact .inr (.inr (.inr hε))
            rcases List.mem_cons.mp this with rfl | this
            · exact hD'
            · rcases List.mem_cons.mp this with rfl | this
              · exact hηD
              · exact R.cracks ε this
      have hmem : ((al δ).1, (al δ).2) ∉ V := hδ'
      have hdir : δ.2 = (al δ).2.opp := (opp_opp δ.2).symm
      by_cases hnode : (c0 (al δ).1).node = true
      · have hcq := k1 hnode
        have hcq' : cc.get (δ.1 + δ.2.diff) = c0 (al δ).1 := hcq
        have hnd : (c0 (al δ).1).diag = false := by
          by_contra hd
          rw [diag_not_node _ (G.valid _) (by simpa using hd)] at hnode
          cases hnode
        rw [hcq', if_neg (by rw [hnd]; simp), if_pos hnode]
        exact ⟨[], cc, al δ, rfl, hbreak (.inr hnode)⟩
      · have hnode' : (c0 (al δ).1).node = false := by simpa using hnode
        have hready : Ready (c0 (al δ).1) V (cc.get (al δ).1) (al δ).1 := by
          rcases k2 hnode' with ⟨_, k⟩ | k
          · exact absurd (k _ hD') hδ'
          · exact k
        have hfresh : ((al δ).1, (c0 (al δ).1).tau (al δ).2) ∉ V := by
          rw [← hready.closed _ hD']
          exact hδ'
        by_cases hd : (c0 (al δ).1).diag = true
        · rw [if_pos (show (cc.get (δ.1 + δ.2.diff)).diag = true from hready.diag.trans hd)]
          have e2 : (passDiag (cc.get (al δ).1) (al δ).2.opp).2 = (c0 (al δ).1).tau (al δ).2 :=
            passDiag_dir _ _ hready.ul hd _
          have hgoal := hstep (put cc (al δ).1 (passDiag (cc.get (al δ).1) (al δ).2.opp).1) (fun r hr => put_ne _ _ hr) hnode' (by
              rw [put_self]
              obtain ⟨b1, b2, b3, b4⟩ := passDiag_bits (cc.get (al δ).1) (al δ).2
              exact hready.step (G.valid _) hnode' hD' b1 b2 b3 (fun hf => by rw [hd] at hf; cases hf)
                (fun _ x => by rw [passDiag_has, e2]; rfl) (fun hf => by rw [hd] at hf; cases hf) fun _ => b4) hfresh
          rw [← e2] at hgoal
          rw [hdir]
          rw [show δ.1 + (al δ).2.opp.diff = (al δ).1 by rw [← hdir]; rfl]
          rw [← hdir] at hgoal ⊢
          exact hgoal
        · have hd' : (c0 (al δ).1).diag = false := by simpa using hd
          rw [if_neg (show ¬ (cc.get (δ.1 + δ.2.diff)).diag = true by
              have := hready.diag
              rw [hd'] at this
              intro hc
              rw [show (cc.get (al δ).1).diag = true from hc] at this
              cases this)]
          rw [if_neg (show ¬ (cc.get (δ.1 + δ.2.diff)).node = true by
              have := hready.node
              rw [hnode'] at this
              intro hc
              rw [show (cc.get (al δ).1).node = true from hc] at this
              cases this)]
          have ef : findDir (cc.get (δ.1 + δ.2.diff)) 4 δ.2.right = .ok ((c0 (al δ).1).tau (al δ).2) := by
            show findDir (cc.get (al δ).1) 4 δ.2.right = _
            rw [findDir_congr (c' := c0 (al δ).1) (fun x => hready.has hd' x), hdir]
            exact findDir_tau _ (G.valid _) hnode' hd' _ hD'
          rw [ef, Outcome.bind_ok]
          have hgoal := hstep (if (cc.get (al δ).1).maybe then put cc (al δ).1 { cc.get (al δ).1 with maybe := false } else cc)
            (fun r hr => by
              split
              · exact put_ne _ _ hr
              · rfl) hnode' (by
              have hpix : (if (cc.get (al δ).1).maybe then put cc (al δ).1 { cc.get (al δ).1 with maybe := false } else cc).get (al δ).1 =
                  { cc.get (al δ).1 with maybe := false } := by
                split
                · exact put_self _ _ _
                · rename_i hm
                  have : (cc.get (al δ).1).maybe = false := by simpa using hm
                  rw [← this]
              rw [hpix]
              refine hready.step (G.valid _) hnode' hD' rfl rfl rfl (fun _ x => by cases x <;> rfl) (fun hf => by rw [hd'] at hf; cases hf)
                (fun _ => rfl) (fun hf => by rw [hd'] at hf; cases hf)) hfresh
          exact hgoal

end
end Verif.Crack
