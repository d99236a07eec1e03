import Verif.Sigma.Model

/-!
# Lemmas on the sigma storage: the vectors represent two functions on `Int`
-/

namespace Verif.Sigma
open Verif

theorem bindOk {α β : Type} {o : Outcome α} {g : α → Outcome β} {x : α} {y : β} (h : o = .ok x) (h' : g x = .ok y) : (o >>= g) = .ok y := by
  subst h; exact h'

/-- what the vectors stand for: `n = edges_.size()` and the two mappings -/
@[ext] structure Fn where
  n : Nat
  sigma : Int → Int
  inv : Int → Int

namespace Fn

/-- `sigmaMapping_[i] = v` -/
def setS (f : Fn) (i v : Int) : Fn := { f with sigma := Function.update f.sigma i v }
/-- `sigmaInverseMapping_[i] = v` -/
def setI (f : Fn) (i v : Int) : Fn := { f with inv := Function.update f.inv i v }

/-- effect of `insertSigmaPredecessor` -/
def insert (f : Fn) (succ new : Int) : Fn :=
  if succ = 0 then (f.setS new new).setI new new
  else (((f.setS (f.inv succ) new).setS new succ).setI succ new).setI new (f.inv succ)

/-- effect of `detachDart` -/
def detach (f : Fn) (d : Int) : Fn := (f.setS (f.inv d) (f.sigma d)).setI (f.sigma d) (f.inv d)

/-- effect of `mergeEdges` -/
def replaceDart (f : Fn) (d1 d2 : Int) : Fn :=
  if f.sigma (-d2) = -d2 then (f.setS d1 d1).setI d1 d1
  else (((f.setS (f.inv (-d2)) d1).setS d1 (f.sigma (-d2))).setI (f.sigma (-d2)) d1).setI d1 (f.inv (-d2))

/-- effect of `splitEdge` -/
def splitEdge (f : Fn) (l r : Nat) : Fn :=
  let g := ((((f.setS (-(l : Int)) r).setS r (-(l : Int))).setI r (-(l : Int))).setI (-(l : Int)) r)
  if f.sigma (-(l : Int)) = -(l : Int) then (g.setS (-(r : Int)) (-(r : Int))).setI (-(r : Int)) (-(r : Int))
  else (((g.setS (f.inv (-(l : Int))) (-(r : Int))).setS (-(r : Int)) (f.sigma (-(l : Int)))).setI (f.sigma (-(l : Int))) (-(r : Int))).setI
    (-(r : Int)) (f.inv (-(l : Int)))

/-- effect of `sortEdgesDirectly` at one node -/
def linkCycle (first : Int) : Int → List Int → Fn → Fn
  | pred, [], f => (f.setS pred first).setI first pred
  | pred, x :: xs, f => linkCycle first x xs ((f.setS pred x).setI x pred)

/-- effect of the copy in `setSigmaMapping` -/
def copyEntries (given : List Int) : Nat → Int → Fn → Fn
  | 0, _, f => f
  | k + 1, i, f => copyEntries given k (i + 1) (f.setS i (given[((given.length / 2 : Nat) + i).toNat]?.getD 0))

/-- effect of the inversion in `setSigmaMapping` -/
def invertEdges : List Nat → Fn → Fn
  | [], f => f
  | l :: ls, f => invertEdges ls ((f.setI (f.sigma l) l).setI (f.sigma (-(l : Int))) (-(l : Int)))

end Fn

/-- effect of a call -/
def Call.apply (f : Fn) : Call → Fn
  | .addEdge l s1 s2 => { (f.insert s1 l).insert s2 (-(l : Int)) with n := l + 1 }
  | .splitEdge l => { f.splitEdge l f.n with n := f.n + 1 }
  | .replaceDart d1 d2 => f.replaceDart d1 d2
  | .detach d => f.detach d
  | .sortNode first rest => Fn.linkCycle first first rest f
  | .setMapping edges given => Fn.invertEdges edges (Fn.copyEntries given (2 * f.n - 1) (-((f.n : Int) - 1)) f)

/-- What the callers guarantee: labels of darts are below `edges_.size()`; `addEdge` gets a new
label; `setSigmaMapping` is given a mapping that is large enough and whose entries are labels. -/
def Call.valid (n : Nat) : Call → Prop
  | .addEdge l s1 s2 => n ≤ l ∧ s1.natAbs < n ∧ s2.natAbs ≤ l
  | .splitEdge l => l < n
  | .replaceDart d1 d2 => d1.natAbs < n ∧ d2.natAbs < n
  | .detach d => d.natAbs < n
  | .sortNode first rest => first.natAbs < n ∧ ∀ d ∈ rest, d.natAbs < n
  | .setMapping edges given => 2 * n - 1 ≤ given.length ∧ (∀ l ∈ edges, l < n) ∧
      ∀ i : Int, i.natAbs < n → (given[((given.length / 2 : Nat) + i).toNat]?.getD 0).natAbs < n

/-- the vectors represent the mappings -/
structure Agree (a : Arrays) (f : Fn) : Prop where
  slen : a.sig.length = 2 * a.centre + 1
  ilen : a.inv.length = 2 * a.centre + 1
  big : 50 ≤ a.centre
  s : ∀ i : Int, i.natAbs ≤ a.centre → a.sig[((a.centre : Int) + i).toNat]? = some (f.sigma i)
  i : ∀ i : Int, i.natAbs ≤ a.centre → a.inv[((a.centre : Int) + i).toNat]? = some (f.inv i)
  s0 : ∀ i : Int, a.centre < i.natAbs → f.sigma i = 0
  i0 : ∀ i : Int, a.centre < i.natAbs → f.inv i = 0

/-- all labels in the mappings are below `m` -/
structure Bounded (f : Fn) (m : Nat) : Prop where
  pos : 0 < m
  s : ∀ i, (f.sigma i).natAbs < m
  i : ∀ i, (f.inv i).natAbs < m

theorem Bounded.mono {f : Fn} {m k : Nat} (h : Bounded f m) (hk : m ≤ k) : Bounded f k :=
  ⟨lt_of_lt_of_le h.pos hk, fun i => lt_of_lt_of_le (h.s i) hk, fun i => lt_of_lt_of_le (h.i i) hk⟩

theorem Bounded.setS {f : Fn} {m : Nat} (h : Bounded f m) (i : Int) {v : Int} (hv : v.natAbs < m) : Bounded (f.setS i v) m := by
  refine ⟨h.pos, fun j => ?_, h.i⟩
  unfold Fn.setS
  by_cases hj : j = i
  · subst hj; simpa using hv
  · simpa [hj] using h.s j

theorem Bounded.setI {f : Fn} {m : Nat} (h : Bounded f m) (i : Int) {v : Int} (hv : v.natAbs < m) : Bounded (f.setI i v) m := by
  refine ⟨h.pos, h.s, fun j => ?_⟩
  unfold Fn.setI
  by_cases hj : j = i
  · subst hj; simpa using hv
  · simpa [hj] using h.i j

theorem Bounded.withN {f : Fn} {m k : Nat} (h : Bounded f m) : Bounded { f with n := k } m := ⟨h.pos, h.s, h.i⟩

namespace Agree
variable {a : Arrays} {f : Fn}

theorem withN (h : Agree a f) (k : Nat) : Agree a { f with n := k } := ⟨h.slen, h.ilen, h.big, h.s, h.i, h.s0, h.i0⟩

theorem getS (h : Agree a f) {i : Int} (hi : i.natAbs ≤ a.centre) : a.getS i = .ok (f.sigma i) := by
  unfold Arrays.getS readAt
  rw [if_pos (by omega), h.s i hi]

theorem getI (h : Agree a f) {i : Int} (hi : i.natAbs ≤ a.centre) : a.getI i = .ok (f.inv i) := by
  unfold Arrays.getI readAt
  rw [if_pos (by omega), h.i i hi]

theorem setS (h : Agree a f) {i : Int} (v : Int) (hi : i.natAbs ≤ a.centre) :
    ∃ b, a.setS i v = .ok b ∧ Agree b (f.setS i v) ∧ b.centre = a.centre := by
  have hl := h.slen
  refine ⟨{ a with sig := a.sig.set ((a.centre : Int) + i).toNat v }, ?_, ⟨?_, h.ilen, h.big, ?_, h.i, ?_, h.i0⟩, rfl⟩
  · unfold Arrays.setS writeAt
    rw [if_pos (by omega)]; rfl
  · simpa using h.slen
  · intro j hj
    unfold Fn.setS
    by_cases hij : j = i
    · subst hij
      simp only [Function.update_self]
      rw [List.getElem?_set_self (by simp only [h.slen]; simp only at hj; omega)]
    · simp only [Function.update_of_ne hij]
      simp only at hj
      rw [List.getElem?_set_ne (by omega)]
      exact h.s j hj
  · intro j hj
    simp only at hj
    unfold Fn.setS
    have : j ≠ i := by rintro rfl; omega
    simpa [Function.update_of_ne this] using h.s0 j hj

theorem setI (h : Agree a f) {i : Int} (v : Int) (hi : i.natAbs ≤ a.centre) :
    ∃ b, a.setI i v = .ok b ∧ Agree b (f.setI i v) ∧ b.centre = a.centre := by
  have hl := h.ilen
  refine ⟨{ a with inv := a.inv.set ((a.centre : Int) + i).toNat v }, ?_, ⟨h.slen, ?_, h.big, h.s, ?_, h.s0, ?_⟩, rfl⟩
  · unfold Arrays.setI writeAt
    rw [if_pos (by omega)]; rfl
  · simpa using h.ilen
  · intro j hj
    unfold Fn.setI
    by_cases hij : j = i
    · subst hij
      simp only [Function.update_self]
      rw [List.getElem?_set_self (by simp only [h.ilen]; simp only at hj; omega)]
    · simp only [Function.update_of_ne hij]
      simp only at hj
      rw [List.getElem?_set_ne (by omega)]
      exact h.i j hj
  · intro j hj
    simp only at hj
    unfold Fn.setI
    have : j ≠ i := by rintro rfl; omega
    simpa [Function.update_of_ne this] using h.i0 j hj

theorem copy_get {l : List Int} {c : Nat} (hl : l.length = 2 * c + 1) {g : Int → Int}
    (hg : ∀ i : Int, i.natAbs ≤ c → l[((c : Int) + i).toNat]? = some (g i)) (hz : ∀ i : Int, c < i.natAbs → g i = 0)
    (i : Int) (hi : i.natAbs ≤ 2 * c) :
    (List.replicate c 0 ++ l ++ List.replicate (4 * c + 1 - c - (2 * c + 1)) 0)[((2 * c : Nat) + i).toNat]? = some (g i) := by
  by_cases h1 : i.natAbs ≤ c
  · rw [List.getElem?_append_left (by simp; omega), List.getElem?_append_right (by simp; omega), List.length_replicate]
    rw [← hg i h1]
    congr 1; omega
  · rw [hz i (by omega)]
    by_cases h2 : i < 0
    · rw [List.getElem?_append_left (by simp; omega), List.getElem?_append_left (by simp; omega), List.getElem?_replicate, if_pos (by omega)]
    · rw [List.getElem?_append_right (by simp; omega)]
      rw [List.getElem?_replicate, if_pos (by simp; omega)]

theorem resize (h : Agree a f) : ∃ b, a.resize (2 * a.sig.length - 1) = .ok b ∧ Agree b f ∧ b.centre = 2 * a.centre := by
  have hs := h.slen
  have hi := h.ilen
  have e1 : 2 * a.sig.length - 1 = 4 * a.centre + 1 := by omega
  have e2 : a.sig.length / 2 = a.centre := by omega
  have e3 : (4 * a.centre + 1) / 2 = 2 * a.centre := by omega
  refine ⟨⟨List.replicate a.centre 0 ++ a.sig ++ List.replicate (4 * a.centre + 1 - a.centre - (2 * a.centre + 1)) 0,
    List.replicate a.centre 0 ++ a.inv ++ List.replicate (4 * a.centre + 1 - a.centre - (2 * a.centre + 1)) 0, 2 * a.centre⟩, ?_, ⟨?_, ?_, ?_, ?_, ?_, ?_, ?_⟩, rfl⟩
  · unfold Arrays.resize Arrays.copyInto
    rw [e1, e2, if_pos (by omega), if_pos (by omega), hs, hi, e3]
    rfl
  · simp [hs]; omega
  · simp [hi]; omega
  · have := h.big; simp only; omega
  · intro i hi'
    exact copy_get hs h.s h.s0 i hi'
  · intro i hi'
    exact copy_get hi h.i h.i0 i hi'
  · intro i hi'; simp only at hi'; exact h.s0 i (by omega)
  · intro i hi'; simp only at hi'; exact h.i0 i (by omega)

theorem growLoop (h : Agree a f) (n : Nat) : ∀ fuel, 2 * n + 2 ≤ fuel + a.sig.length →
    1 ≤ fuel → ∃ b, Arrays.growLoop n fuel a = .ok b ∧ Agree b f ∧ n ≤ b.centre ∧ a.centre ≤ b.centre := by
  intro fuel
  induction fuel generalizing a with
  | zero => intro _ h0; omega
  | succ fuel ih =>
    intro hf _
    have hs := h.slen
    have hb := h.big
    unfold Arrays.growLoop
    by_cases hlt : a.sig.length < 2 * n + 1
    · rw [if_pos hlt]
      obtain ⟨b, hb1, hb2, hb3⟩ := h.resize
      have hs2 := hb2.slen
      have e : (do let a ← a.resize (2 * a.sig.length - 1); Arrays.growLoop n fuel a : Outcome Arrays) = Arrays.growLoop n fuel b := by
        show Outcome.bind _ _ = _
        rw [hb1]; rfl
      rw [e]
      obtain ⟨c, h1, h2, h3, h4⟩ := ih hb2 (by omega) (by omega)
      exact ⟨c, h1, h2, h3, by omega⟩
    · rw [if_neg hlt]
      exact ⟨a, rfl, h, by omega, le_refl _⟩

theorem link (h : Agree a f) {m : Nat} (hB : Bounded f m) (hm : m ≤ a.centre + 1) {s x : Int} (hs : s.natAbs ≤ a.centre) (hx : x.natAbs ≤ a.centre) :
    ∃ b, a.link s x = .ok b ∧ Agree b (f.insert s x) ∧ b.centre = a.centre := by
  unfold Arrays.link Fn.insert
  by_cases h0 : s = 0
  · rw [if_pos h0, if_pos h0]
    obtain ⟨b, e1, h1, c1⟩ := h.setS x hx
    obtain ⟨c, e2, h2, c2⟩ := h1.setI (i := x) x (by omega)
    refine ⟨c, ?_, h2, by omega⟩
    exact bindOk e1 e2
  · rw [if_neg h0, if_neg h0]
    have := hB.i s
    obtain ⟨b, e1, h1, c1⟩ := h.setS (i := f.inv s) x (by omega)
    obtain ⟨c, e2, h2, c2⟩ := h1.setS (i := x) s (by omega)
    obtain ⟨d, e3, h3, c3⟩ := h2.setI (i := s) x (by omega)
    obtain ⟨e, e4, h4, c4⟩ := h3.setI (i := x) (f.inv s) (by omega)
    refine ⟨e, ?_, h4, by omega⟩
    exact bindOk (h.getI hs) (bindOk e1 (bindOk e2 (bindOk e3 e4)))

theorem insertPredecessor (h : Agree a f) {m : Nat} (hB : Bounded f m) (hm : m ≤ a.centre + 1) {s x : Int} (hs : s.natAbs ≤ max a.centre x.natAbs) :
    ∃ b, a.insertPredecessor s x = .ok b ∧ Agree b (f.insert s x) ∧ a.centre ≤ b.centre ∧ x.natAbs ≤ b.centre := by
  obtain ⟨b, e1, h1, c1, c2⟩ := h.growLoop x.natAbs (2 * x.natAbs + 2) (by omega) (by omega)
  obtain ⟨c, e2, h2, c3⟩ := h1.link hB (by omega) (s := s) (x := x) (by omega) c1
  refine ⟨c, ?_, h2, by omega, by omega⟩
  unfold Arrays.insertPredecessor
  exact bindOk e1 e2

theorem detach (h : Agree a f) {m : Nat} (hB : Bounded f m) (hm : m ≤ a.centre + 1) {d : Int} (hd : d.natAbs ≤ a.centre) :
    ∃ b, a.detach d = .ok b ∧ Agree b (f.detach d) ∧ b.centre = a.centre := by
  have b1 := hB.i d
  have b2 := hB.s d
  obtain ⟨b, e1, h1, c1⟩ := h.setS (i := f.inv d) (f.sigma d) (by omega)
  obtain ⟨c, e2, h2, c2⟩ := h1.setI (i := f.sigma d) (f.inv d) (by omega)
  refine ⟨c, ?_, h2, by omega⟩
  unfold Arrays.detach
  exact bindOk (h.getS hd) (bindOk (h.getI hd) (bindOk e1 e2))

theorem replaceDart (h : Agree a f) {m : Nat} (hB : Bounded f m) (hm : m ≤ a.centre + 1) {d1 d2 : Int} (hd1 : d1.natAbs ≤ a.centre) (hd2 : d2.natAbs ≤ a.centre) :
    ∃ b, a.replaceDart d1 d2 = .ok b ∧ Agree b (f.replaceDart d1 d2) ∧ b.centre = a.centre := by
  have b1 := hB.i (-d2)
  have b2 := hB.s (-d2)
  unfold Arrays.replaceDart Fn.replaceDart
  by_cases h0 : f.sigma (-d2) = -d2
  · rw [if_pos h0]
    obtain ⟨b, e1, h1, c1⟩ := h.setS (i := d1) d1 hd1
    obtain ⟨c, e2, h2, c2⟩ := h1.setI (i := d1) d1 (by omega)
    refine ⟨c, ?_, h2, by omega⟩
    refine bindOk (h.getS (by omega)) ?_
    show (if f.sigma (-d2) = -d2 then _ else _) = _
    rw [if_pos h0]
    exact bindOk e1 e2
  · rw [if_neg h0]
    obtain ⟨b, e1, h1, c1⟩ := h.setS (i := f.inv (-d2)) d1 (by omega)
    obtain ⟨c, e2, h2, c2⟩ := h1.setS (i := d1) (f.sigma (-d2)) (by omega)
    obtain ⟨d, e3, h3, c3⟩ := h2.setI (i := f.sigma (-d2)) d1 (by omega)
    obtain ⟨e, e4, h4, c4⟩ := h3.setI (i := d1) (f.inv (-d2)) (by omega)
    refine ⟨e, ?_, h4, by omega⟩
    refine bindOk (h.getS (by omega)) ?_
    show (if f.sigma (-d2) = -d2 then _ else _) = _
    rw [if_neg h0]
    exact bindOk (h.getI (by omega)) (bindOk e1 (bindOk e2 (bindOk e3 e4)))

theorem growOnce (h : Agree a f) {r : Nat} (hr : r ≤ a.centre + 1) : ∃ b, a.growOnce r = .ok b ∧ Agree b f ∧ r ≤ b.centre ∧ a.centre ≤ b.centre := by
  have hs := h.slen
  have hb := h.big
  unfold Arrays.growOnce
  by_cases hlt : a.sig.length < 2 * r + 1
  · rw [if_pos hlt]
    obtain ⟨b, e, h1, c⟩ := h.resize
    exact ⟨b, e, h1, by omega, by omega⟩
  · rw [if_neg hlt]; exact ⟨a, rfl, h, by omega, le_refl _⟩

theorem splitTail (h : Agree a f) {l r : Nat} (hr : r ≤ a.centre) {s p : Int} (hs : s.natAbs ≤ a.centre) (hp : p.natAbs ≤ a.centre) :
    ∃ b, a.splitTail l r s p = .ok b ∧ b.centre = a.centre ∧
      Agree b (if s = -(l : Int) then (f.setS (-(r : Int)) (-(r : Int))).setI (-(r : Int)) (-(r : Int))
        else (((f.setS p (-(r : Int))).setS (-(r : Int)) s).setI s (-(r : Int))).setI (-(r : Int)) p) := by
  unfold Arrays.splitTail
  by_cases h0 : s = -(l : Int)
  · rw [if_pos h0, if_pos h0]
    obtain ⟨b, e1, h1, c1⟩ := h.setS (i := -(r : Int)) (-(r : Int)) (by omega)
    obtain ⟨c, e2, h2, c2⟩ := h1.setI (i := -(r : Int)) (-(r : Int)) (by omega)
    refine ⟨c, ?_, by omega, h2⟩
    exact bindOk e1 e2
  · rw [if_neg h0, if_neg h0]
    obtain ⟨b, e1, h1, c1⟩ := h.setS (i := p) (-(r : Int)) hp
    obtain ⟨c, e2, h2, c2⟩ := h1.setS (i := -(r : Int)) s (by omega)
    obtain ⟨d, e3, h3, c3⟩ := h2.setI (i := s) (-(r : Int)) (by omega)
    obtain ⟨e, e4, h4, c4⟩ := h3.setI (i := -(r : Int)) p (by omega)
    refine ⟨e, ?_, by omega, h4⟩
    exact bindOk e1 (bindOk e2 (bindOk e3 e4))

theorem splitEdge (h : Agree a f) {m : Nat} (hB : Bounded f m) (hm : m ≤ a.centre + 1) {l r : Nat} (hl : l ≤ a.centre) (hr : r ≤ a.centre + 1) :
    ∃ b, a.splitEdge l r = .ok b ∧ Agree b (f.splitEdge l r) ∧ r ≤ b.centre ∧ a.centre ≤ b.centre := by
  have b1 := hB.i (-(l : Int))
  have b2 := hB.s (-(l : Int))
  obtain ⟨b, e0, h0, c0, c0'⟩ := h.growOnce hr
  obtain ⟨c, e1, h1, c1⟩ := h0.setS (i := -(l : Int)) (r : Int) (by omega)
  obtain ⟨d, e2, h2, c2⟩ := h1.setS (i := (r : Int)) (-(l : Int)) (by omega)
  obtain ⟨e, e3, h3, c3⟩ := h2.setI (i := (r : Int)) (-(l : Int)) (by omega)
  obtain ⟨g, e4, h4, c4⟩ := h3.setI (i := -(l : Int)) (r : Int) (by omega)
  obtain ⟨z, e5, c5, h5⟩ := h4.splitTail (l := l) (r := r) (s := f.sigma (-(l : Int))) (p := f.inv (-(l : Int))) (by omega) (by omega) (by omega)
  refine ⟨z, ?_, ?_, by omega, by omega⟩
  · unfold Arrays.splitEdge
    exact bindOk e0 (bindOk (h0.getS (by omega)) (bindOk (h0.getI (by omega)) (bindOk e1 (bindOk e2 (bindOk e3 (bindOk e4 e5))))))
  · unfold Fn.splitEdge
    exact h5

theorem linkCycle (first : Int) : ∀ (rest : List Int) (pred : Int) (a : Arrays) (f : Fn), Agree a f → first.natAbs ≤ a.centre →
    pred.natAbs ≤ a.centre → (∀ d ∈ rest, d.natAbs ≤ a.centre) →
    ∃ b, Arrays.linkCycle first pred rest a = .ok b ∧ Agree b (Fn.linkCycle first pred rest f) ∧ b.centre = a.centre := by
  intro rest
  induction rest with
  | nil =>
    intro pred a f h hf hp _
    obtain ⟨b, e1, h1, c1⟩ := h.setS (i := pred) first hp
    obtain ⟨c, e2, h2, c2⟩ := h1.setI (i := first) pred (by omega)
    refine ⟨c, ?_, h2, by omega⟩
    unfold Arrays.linkCycle
    exact bindOk e1 e2
  | cons x xs ih =>
    intro pred a f h hf hp hr
    have hx := hr x (by simp)
    obtain ⟨b, e1, h1, c1⟩ := h.setS (i := pred) x hp
    obtain ⟨c, e2, h2, c2⟩ := h1.setI (i := x) pred (by omega)
    obtain ⟨d, e3, h3, c3⟩ := ih x c _ h2 (by omega) (by omega) (fun y hy => by have := hr y (by simp [hy]); omega)
    refine ⟨d, ?_, h3, by omega⟩
    unfold Arrays.linkCycle
    exact bindOk e1 (bindOk e2 e3)

theorem copyEntries (given : List Int) : ∀ (k : Nat) (i : Int) (a : Arrays) (f : Fn), Agree a f →
    -(a.centre : Int) ≤ i → i + k ≤ a.centre + 1 → 0 ≤ (given.length / 2 : Nat) + i → (given.length / 2 : Nat) + i + k ≤ given.length →
    ∃ b, Arrays.copyEntries given k i a = .ok b ∧ Agree b (Fn.copyEntries given k i f) ∧ b.centre = a.centre := by
  intro k
  induction k with
  | zero => intro i a f h _ _ _ _; exact ⟨a, rfl, h, rfl⟩
  | succ k ih =>
    intro i a f h h1 h2 h3 h4
    push_cast at h2 h4
    have hlt : (((given.length / 2 : Nat) : Int) + i).toNat < given.length := by omega
    have hr : readAt given (given.length / 2) i = .ok (given[(((given.length / 2 : Nat) : Int) + i).toNat]?.getD 0) := by
      unfold readAt
      rw [if_pos h3, List.getElem?_eq_getElem hlt]; rfl
    obtain ⟨b, e1, hb, c1⟩ := h.setS (i := i) (given[(((given.length / 2 : Nat) : Int) + i).toNat]?.getD 0) (by omega)
    obtain ⟨c, e2, hc, c2⟩ := ih (i + 1) b _ hb (by omega) (by omega) (by omega) (by omega)
    refine ⟨c, ?_, hc, by omega⟩
    unfold Arrays.copyEntries
    exact bindOk hr (bindOk e1 e2)

theorem invertEdges : ∀ (ls : List Nat) (a : Arrays) (f : Fn), Agree a f → (∀ l ∈ ls, l ≤ a.centre) →
    (∀ l ∈ ls, (f.sigma l).natAbs ≤ a.centre ∧ (f.sigma (-(l : Int))).natAbs ≤ a.centre) →
    ∃ b, Arrays.invertEdges ls a = .ok b ∧ Agree b (Fn.invertEdges ls f) ∧ b.centre = a.centre := by
  intro ls
  induction ls with
  | nil => intro a f h _ _; exact ⟨a, rfl, h, rfl⟩
  | cons l ls ih =>
    intro a f h hl hs
    have h0 := hl l (by simp)
    obtain ⟨s1, s2⟩ := hs l (by simp)
    obtain ⟨b, e1, h1, c1⟩ := h.setI (i := f.sigma l) (l : Int) s1
    obtain ⟨c, e2, h2, c2⟩ := h1.setI (i := f.sigma (-(l : Int))) (-(l : Int)) (by omega)
    obtain ⟨d, e3, h3, c3⟩ := ih c _ h2 (fun y hy => by have := hl y (by simp [hy]); omega)
      (fun y hy => by have := hs y (by simp [hy]); simp only [Fn.setI]; omega)
    refine ⟨d, ?_, h3, by omega⟩
    unfold Arrays.invertEdges
    refine bindOk (h.getS (by omega)) (bindOk e1 (bindOk (h1.getS (by omega)) ?_))
    show Outcome.bind _ _ = _
    rw [show (f.setI (f.sigma l) l).sigma (-(l : Int)) = f.sigma (-(l : Int)) from rfl, e2]; exact e3

end Agree

/-! ## the labels stay below `edges_.size()` -/

namespace Bounded
variable {f : Fn} {m : Nat}

theorem insert (h : Bounded f m) {s x : Int} (hs : s.natAbs < m) (hx : x.natAbs < m) : Bounded (f.insert s x) m := by
  unfold Fn.insert
  split_ifs
  · exact (h.setS _ hx).setI _ hx
  · exact (((h.setS _ hx).setS _ hs).setI _ hx).setI _ (h.i s)

theorem detach (h : Bounded f m) (d : Int) : Bounded (f.detach d) m := (h.setS _ (h.s d)).setI _ (h.i d)

theorem replaceDart (h : Bounded f m) {d1 d2 : Int} (h1 : d1.natAbs < m) : Bounded (f.replaceDart d1 d2) m := by
  unfold Fn.replaceDart
  split_ifs
  · exact (h.setS _ h1).setI _ h1
  · exact (((h.setS _ h1).setS _ (h.s _)).setI _ h1).setI _ (h.i _)

theorem splitEdge (h : Bounded f m) {l r : Nat} (hl : l < m) (hr : r < m) : Bounded (f.splitEdge l r) m := by
  have hl' : (-(l : Int)).natAbs < m := by omega
  have hr' : (-(r : Int)).natAbs < m := by omega
  have hr'' : ((r : Int)).natAbs < m := by omega
  have := (((h.setS (-(l : Int)) hr'').setS (r : Int) hl').setI (r : Int) hl').setI (-(l : Int)) hr''
  unfold Fn.splitEdge
  simp only
  split_ifs
  · exact (this.setS _ hr').setI _ hr'
  · exact (((this.setS _ hr').setS _ (h.s _)).setI _ hr').setI _ (h.i _)

theorem linkCycle {first : Int} (hf : first.natAbs < m) : ∀ (rest : List Int) (pred : Int) (f : Fn), Bounded f m → pred.natAbs < m →
    (∀ d ∈ rest, d.natAbs < m) → Bounded (Fn.linkCycle first pred rest f) m := by
  intro rest
  induction rest with
  | nil => intro pred f h hp _; exact (h.setS _ hf).setI _ hp
  | cons x xs ih =>
    intro pred f h hp hr
    exact ih x _ ((h.setS _ (hr x (by simp))).setI _ hp) (hr x (by simp)) fun d hd => hr d (by simp [hd])

theorem copyEntries {given : List Int} : ∀ (k : Nat) (i : Int) (f : Fn), Bounded f m →
    (∀ j : Int, i ≤ j → j < i + k → (given[((given.length / 2 : Nat) + j).toNat]?.getD 0).natAbs < m) →
    Bounded (Fn.copyEntries given k i f) m := by
  intro k
  induction k with
  | zero => intro i f h _; exact h
  | succ k ih =>
    intro i f h hg
    refine ih (i + 1) _ (h.setS _ (hg i le_rfl (by push_cast; omega))) fun j h1 h2 => hg j (by omega) (by push_cast; omega)

theorem invertEdges : ∀ (ls : List Nat) (f : Fn), Bounded f m → (∀ l ∈ ls, l < m) → Bounded (Fn.invertEdges ls f) m := by
  intro ls
  induction ls with
  | nil => intro f h _; exact h
  | cons l ls ih =>
    intro f h hl
    have := hl l (by simp)
    exact ih _ ((h.setI _ (by omega)).setI _ (by omega)) fun y hy => hl y (by simp [hy])

end Bounded

/-! ## one call, a history of calls -/

/-- the state of the storage after a legal history -/
structure Rep (a : Arrays) (f : Fn) : Prop where
  agree : Agree a f
  bounded : Bounded f f.n
  fits : f.n ≤ a.centre + 1

theorem Rep.call {a : Arrays} {f : Fn} (h : Rep a f) (c : Call) (hv : c.valid f.n) :
    ∃ b, c.run f.n a = .ok b ∧ Rep b (c.apply f) ∧ (c.apply f).n = c.size f.n := by
  have hB := h.bounded
  have hF := h.fits
  have hpos := hB.pos
  have hbig := h.agree.big
  have hsl := h.agree.slen
  cases c with
  | addEdge l s1 s2 =>
    obtain ⟨hl, h1, h2⟩ := hv
    obtain ⟨b, e1, hb, c1, c1'⟩ := h.agree.insertPredecessor hB hF (s := s1) (x := (l : Int)) (by omega)
    have hB1 : Bounded (f.insert s1 l) (l + 1) := (hB.mono (by omega)).insert (by omega) (by omega)
    obtain ⟨c, e2, hc, c2, c2'⟩ := hb.insertPredecessor hB1 (by omega) (s := s2) (x := -(l : Int)) (by omega)
    refine ⟨c, ?_, ⟨hc.withN _, (hB1.insert (by omega) (by omega)).withN, ?_⟩, rfl⟩
    · exact bindOk e1 e2
    · show l + 1 ≤ _; omega
  | splitEdge l =>
    have hl : l < f.n := hv
    obtain ⟨b, e1, hb, c1, c2⟩ := h.agree.splitEdge hB hF (l := l) (r := f.n) (by omega) hF
    refine ⟨b, e1, ⟨hb.withN _, ((hB.mono (Nat.le_succ _)).splitEdge (by omega) (by omega)).withN, ?_⟩, rfl⟩
    show f.n + 1 ≤ _; omega
  | replaceDart d1 d2 =>
    obtain ⟨h1, h2⟩ := hv
    obtain ⟨b, e1, hb, c1⟩ := h.agree.replaceDart hB hF (d1 := d1) (d2 := d2) (by omega) (by omega)
    have hn : (f.replaceDart d1 d2).n = f.n := by unfold Fn.replaceDart; split_ifs <;> rfl
    refine ⟨b, e1, ⟨hb, ?_, ?_⟩, hn⟩
    · show Bounded (f.replaceDart d1 d2) (f.replaceDart d1 d2).n
      rw [hn]; exact hB.replaceDart h1
    · show (f.replaceDart d1 d2).n ≤ _
      omega
  | detach d =>
    have hd : d.natAbs < f.n := hv
    obtain ⟨b, e1, hb, c1⟩ := h.agree.detach hB hF (d := d) (by omega)
    exact ⟨b, e1, ⟨hb, hB.detach d, by show f.n ≤ _; omega⟩, rfl⟩
  | sortNode first rest =>
    obtain ⟨h1, h2⟩ := hv
    obtain ⟨b, e1, hb, c1⟩ := Agree.linkCycle first rest first a f h.agree (by omega) (by omega) (fun d hd => by have := h2 d hd; omega)
    have hn : ∀ (rest : List Int) (p : Int) (f : Fn), (Fn.linkCycle first p rest f).n = f.n := by
      intro rest
      induction rest with
      | nil => intro p f; rfl
      | cons x xs ih => intro p f; exact ih x _
    refine ⟨b, e1, ⟨hb, ?_, ?_⟩, hn _ _ _⟩
    · show Bounded (Fn.linkCycle first first rest f) (Fn.linkCycle first first rest f).n
      rw [hn]; exact Bounded.linkCycle h1 rest first f hB h1 h2
    · show (Fn.linkCycle first first rest f).n ≤ _
      rw [hn]; omega
  | setMapping edges given =>
    obtain ⟨h1, h2, h3⟩ := hv
    obtain ⟨b, e1, hb, c1⟩ := Agree.copyEntries given (2 * f.n - 1) (-((f.n : Int) - 1)) a f h.agree (by omega) (by omega) (by omega) (by omega)
    have hBb : Bounded (Fn.copyEntries given (2 * f.n - 1) (-((f.n : Int) - 1)) f) f.n :=
      Bounded.copyEntries _ _ _ hB fun j j1 j2 => h3 j (by omega)
    obtain ⟨c, e2, hc, c2⟩ := Agree.invertEdges edges b _ hb (fun l hl => by have := h2 l hl; omega)
      (fun l hl => ⟨by have := hBb.s l; omega, by have := hBb.s (-(l : Int)); omega⟩)
    have hn1 : ∀ (k : Nat) (i : Int) (f : Fn), (Fn.copyEntries given k i f).n = f.n := by
      intro k
      induction k with
      | zero => intro i f; rfl
      | succ k ih => intro i f; exact ih (i + 1) _
    have hn2 : ∀ (ls : List Nat) (f : Fn), (Fn.invertEdges ls f).n = f.n := by
      intro ls
      induction ls with
      | nil => intro f; rfl
      | cons l ls ih => intro f; exact ih _
    have hn : ((Call.setMapping edges given).apply f).n = f.n := by
      show (Fn.invertEdges _ _).n = _
      rw [hn2, hn1]
    refine ⟨c, ?_, ⟨hc, ?_, ?_⟩, hn⟩
    · show a.setMapping f.n edges given = _
      unfold Arrays.setMapping Arrays.growTo
      rw [if_neg (by omega), if_neg (by omega)]
      show Outcome.bind (Arrays.copyEntries _ _ _ a) _ = _
      rw [e1]; exact e2
    · rw [hn]; exact Bounded.invertEdges _ _ hBb h2
    · rw [hn]; omega

/-- all calls of a history are legal -/
def validCalls : List Call → Nat → Prop
  | [], _ => True
  | c :: cs, n => c.valid n ∧ validCalls cs (c.size n)

/-- effect of a history of calls -/
def applyCalls (cs : List Call) (f : Fn) : Fn := cs.foldl Call.apply f

theorem Rep.calls : ∀ (cs : List Call) {a : Arrays} {f : Fn}, Rep a f → validCalls cs f.n →
    ∃ b, runCalls cs f.n a = .ok b ∧ Rep b (applyCalls cs f) := by
  intro cs
  induction cs with
  | nil => intro a f h _; exact ⟨a, rfl, h⟩
  | cons c cs ih =>
    intro a f h hv
    obtain ⟨b, e1, hb, hn⟩ := h.call c hv.1
    obtain ⟨d, e2, hd⟩ := ih hb (by rw [hn]; exact hv.2)
    refine ⟨d, ?_, hd⟩
    unfold runCalls
    show Outcome.bind _ _ = _
    rw [e1, ← hn]; exact e2

/-- the constructor -/
theorem Rep.init : Rep Arrays.init ⟨1, fun _ => 0, fun _ => 0⟩ := by
  have key : ∀ i : Int, i.natAbs ≤ 50 → (List.replicate 101 (0 : Int))[((50 : Nat) + i : Int).toNat]? = some 0 := by
    intro i hi
    rw [List.getElem?_replicate, if_pos (by omega)]
  exact ⟨⟨by simp [Arrays.init], by simp [Arrays.init], by simp [Arrays.init], key, key, fun _ _ => rfl, fun _ _ => rfl⟩, ⟨by simp, by simp, by simp⟩, by simp⟩

theorem applyCalls_append (cs ds : List Call) (f : Fn) : applyCalls (cs ++ ds) f = applyCalls ds (applyCalls cs f) := by
  unfold applyCalls; rw [List.foldl_append]

theorem Call.apply_n (f : Fn) (c : Call) : (c.apply f).n = c.size f.n := by
  have key : ∀ (f : Fn) (s x : Int), (f.insert s x).n = f.n := by intro f s x; unfold Fn.insert; split_ifs <;> rfl
  cases c with
  | addEdge l s1 s2 => rfl
  | splitEdge l => rfl
  | replaceDart d1 d2 => show (Fn.replaceDart f d1 d2).n = _; unfold Fn.replaceDart; split_ifs <;> rfl
  | detach d => rfl
  | sortNode first rest =>
    have : ∀ (rest : List Int) (p : Int) (f : Fn), (Fn.linkCycle first p rest f).n = f.n := by
      intro rest
      induction rest with
      | nil => intro p f; rfl
      | cons x xs ih => intro p f; exact ih x _
    exact this _ _ _
  | setMapping edges given =>
    have hn1 : ∀ (k : Nat) (i : Int) (f : Fn), (Fn.copyEntries given k i f).n = f.n := by
      intro k
      induction k with
      | zero => intro i f; rfl
      | succ k ih => intro i f; exact ih (i + 1) _
    have hn2 : ∀ (ls : List Nat) (f : Fn), (Fn.invertEdges ls f).n = f.n := by
      intro ls
      induction ls with
      | nil => intro f; rfl
      | cons l ls ih => intro f; exact ih _
    show (Fn.invertEdges _ _).n = _
    rw [hn2, hn1]; rfl

theorem validCalls_append {cs ds : List Call} {f : Fn} (h1 : validCalls cs f.n) (h2 : validCalls ds (applyCalls cs f).n) : validCalls (cs ++ ds) f.n := by
  induction cs generalizing f with
  | nil => exact h2
  | cons c cs ih =>
    refine ⟨h1.1, ?_⟩
    rw [← Call.apply_n]
    exact ih (by rw [Call.apply_n]; exact h1.2) h2

end Verif.Sigma
