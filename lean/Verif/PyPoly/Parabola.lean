import Verif.PyPoly.Tangent
import Mathlib.LinearAlgebra.FiniteDimensional.Basic
import Mathlib.LinearAlgebra.FiniteDimensional.Lemmas
import Mathlib.LinearAlgebra.Dimension.Constructions

/-! # Fitting a parabola: specification and helper lemmas -/

namespace Verif.PyPoly
open Verif Verif.GeoMap Verif.DartPos Verif.Resample

/-- The sum of the squared errors of the parabola `p0 x² + p1 x + p2` for the given pairs -/
noncomputable def sqErr (d : List (ℝ × ℝ)) (p0 p1 p2 : ℝ) : ℝ := (d.map fun x => (x.2 - (p0 * x.1 ^ 2 + p1 * x.1 + p2)) ^ 2).sum

/-- the sums belong to the data `d` -/
structure Sums (f : ParabolaFit) (d : List (ℝ × ℝ)) : Prop where
  a4 : f.sumAl4 = (d.map fun x => x.1 ^ 4).sum
  a3 : f.sumAl3 = (d.map fun x => x.1 ^ 3).sum
  a2 : f.sumAl2 = (d.map fun x => x.1 ^ 2).sum
  a1 : f.sumAl = (d.map fun x => x.1).sum
  t2 : f.sumAl2Theta = (d.map fun x => x.1 ^ 2 * x.2).sum
  t1 : f.sumAlTheta = (d.map fun x => x.1 * x.2).sum
  t0 : f.sumTheta = (d.map fun x => x.2).sum
  tt : f.sumTheta2 = (d.map fun x => x.2 ^ 2).sum

theorem Sums.new : Sums .new [] := by constructor <;> simp [ParabolaFit.new]

theorem addPairs_spec (l : List (ℝ × ℝ)) : ∀ (f : ParabolaFit) (d : List (ℝ × ℝ)), Sums f d → f.cont.OK →
    ∃ θ, Sums (l.foldl ParabolaFit.addPair f) (d ++ List.zip (l.map Prod.fst) θ) ∧ Unwrapped f.cont (l.foldl ParabolaFit.addPair f).cont (l.map Prod.snd) θ ∧
      (l.foldl ParabolaFit.addPair f).count = f.count := by
  induction l with
  | nil => intro f d h hc; exact ⟨[], by simpa using h, .nil hc, rfl⟩
  | cons x l ih =>
    intro f d h hc
    have st := Unwrapped.step hc x.2
    obtain ⟨θ, h1, h2, h3⟩ := ih (f.addPair x) (d ++ [(x.1, (f.cont.step x.2).1)]) (by
      constructor <;> simp only [ParabolaFit.addPair, List.map_append, List.sum_append, List.map_cons, List.map_nil, List.sum_cons, List.sum_nil,
        h.a4, h.a3, h.a2, h.a1, h.t2, h.t1, h.t0, h.tt] <;> ring) st.ok
    refine ⟨(f.cont.step x.2).1 :: θ, ?_, ?_, ?_⟩
    · simpa using h1
    · simpa using st.append h2
    · simpa [ParabolaFit.addPair] using h3

/-- all lists added one after the other -/
noncomputable def addLists (ls : List (List (ℝ × ℝ))) : ParabolaFit := ls.foldl ParabolaFit.addTangentList .new

theorem addLists_spec (ls : List (List (ℝ × ℝ))) : ∀ (f : ParabolaFit) (d : List (ℝ × ℝ)), Sums f d → f.cont.OK → f.count = d.length →
    ∃ θ, Sums (ls.foldl ParabolaFit.addTangentList f) (d ++ List.zip (ls.flatten.map Prod.fst) θ) ∧
      Unwrapped f.cont (ls.foldl ParabolaFit.addTangentList f).cont (ls.flatten.map Prod.snd) θ ∧
      (ls.foldl ParabolaFit.addTangentList f).count = d.length + ls.flatten.length := by
  induction ls with
  | nil => intro f d h hc hn; exact ⟨[], by simpa using h, .nil hc, by simpa using hn⟩
  | cons l ls ih =>
    intro f d h hc hn
    obtain ⟨θ, h1, h2, h3⟩ := addPairs_spec l f d h hc
    have hl : θ.length = l.length := by have := h2.same.length_eq; simpa using this
    obtain ⟨θ', k1, k2, k3⟩ := ih (f.addTangentList l) (d ++ List.zip (l.map Prod.fst) θ) ⟨h1.a4, h1.a3, h1.a2, h1.a1, h1.t2, h1.t1, h1.t0, h1.tt⟩ h2.ok (by
      simp [ParabolaFit.addTangentList, h3, hn, hl])
    refine ⟨θ ++ θ', ?_, ?_, ?_⟩
    · rw [List.flatten_cons, List.map_append, List.zip_append (by simp [hl]), ← List.append_assoc]; exact k1
    · rw [List.flatten_cons, List.map_append]; exact h2.append k2
    · simp only [List.foldl_cons, k3, List.length_append, List.length_zip, List.length_map, hl, List.flatten_cons]; simp; omega

theorem sqErr_eq (d : List (ℝ × ℝ)) (p0 p1 p2 : ℝ) : sqErr d p0 p1 p2 =
    (d.map fun x => x.2 ^ 2).sum + p0 * p0 * (d.map fun x => x.1 ^ 4).sum + p1 * p1 * (d.map fun x => x.1 ^ 2).sum + p2 * p2 * d.length +
    2 * p0 * p1 * (d.map fun x => x.1 ^ 3).sum + 2 * p0 * p2 * (d.map fun x => x.1 ^ 2).sum - 2 * p0 * (d.map fun x => x.1 ^ 2 * x.2).sum +
    2 * p1 * p2 * (d.map fun x => x.1).sum - 2 * p1 * (d.map fun x => x.1 * x.2).sum - 2 * p2 * (d.map fun x => x.2).sum := by
  unfold sqErr
  induction d with
  | nil => simp
  | cons x d ih => simp only [List.map_cons, List.sum_cons, ih, List.length_cons]; push_cast; ring

/-- the quadratic form of the normal equations -/
theorem quadForm_eq (d : List (ℝ × ℝ)) (e0 e1 e2 : ℝ) : (d.map fun x => (e0 * x.1 ^ 2 + e1 * x.1 + e2) ^ 2).sum =
    e0 * e0 * (d.map fun x => x.1 ^ 4).sum + e1 * e1 * (d.map fun x => x.1 ^ 2).sum + e2 * e2 * d.length +
    2 * e0 * e1 * (d.map fun x => x.1 ^ 3).sum + 2 * e0 * e2 * (d.map fun x => x.1 ^ 2).sum + 2 * e1 * e2 * (d.map fun x => x.1).sum := by
  induction d with
  | nil => simp
  | cons x d ih => simp only [List.map_cons, List.sum_cons, ih, List.length_cons]; push_cast; ring

theorem sum_sq_nonneg (d : List (ℝ × ℝ)) (g : ℝ × ℝ → ℝ) : 0 ≤ (d.map fun x => g x ^ 2).sum := by
  apply List.sum_nonneg
  intro y hy
  obtain ⟨x, _, rfl⟩ := List.mem_map.1 hy
  exact sq_nonneg _

theorem sum_sq_zero {d : List (ℝ × ℝ)} {g : ℝ × ℝ → ℝ} (h : (d.map fun x => g x ^ 2).sum = 0) : ∀ x ∈ d, g x = 0 := by
  induction d with
  | nil => intro x hx; cases hx
  | cons y d ih =>
    rw [List.map_cons, List.sum_cons] at h
    have h1 := sum_sq_nonneg d g
    have h2 := sq_nonneg (g y)
    intro x hx
    rcases List.mem_cons.1 hx with rfl | hx
    · exact (pow_eq_zero_iff (n := 2) (by norm_num)).1 (by linarith)
    · exact ih (by linarith) x hx

theorem minimal {f : ParabolaFit} {d : List (ℝ × ℝ)} (hs : Sums f d) (hn : f.count = d.length) {p0 p1 p2 : ℝ} (h : f.Solves p0 p1 p2) (q0 q1 q2 : ℝ) :
    sqErr d p0 p1 p2 ≤ sqErr d q0 q1 q2 := by
  obtain ⟨h1, h2, h3⟩ := h
  rw [hs.a4, hs.a3, hs.a2, hs.t2] at h1
  rw [hs.a3, hs.a2, hs.a1, hs.t1] at h2
  rw [hs.a2, hs.a1, hs.t0, hn] at h3
  have hq := quadForm_eq d (q0 - p0) (q1 - p1) (q2 - p2)
  have hp := sum_sq_nonneg d fun x => (q0 - p0) * x.1 ^ 2 + (q1 - p1) * x.1 + (q2 - p2)
  rw [hq] at hp
  have : sqErr d q0 q1 q2 - sqErr d p0 p1 p2 = (q0 - p0) * (q0 - p0) * (d.map fun x => x.1 ^ 4).sum + (q1 - p1) * (q1 - p1) * (d.map fun x => x.1 ^ 2).sum + (q2 - p2) * (q2 - p2) * d.length +
    2 * (q0 - p0) * (q1 - p1) * (d.map fun x => x.1 ^ 3).sum + 2 * (q0 - p0) * (q2 - p2) * (d.map fun x => x.1 ^ 2).sum + 2 * (q1 - p1) * (q2 - p2) * (d.map fun x => x.1).sum := by
    rw [sqErr_eq, sqErr_eq, ← h1, ← h2, ← h3]; ring
  linarith

/-- the left side of the system -/
def normalMap (f : ParabolaFit) : (ℝ × ℝ × ℝ) →ₗ[ℝ] (ℝ × ℝ × ℝ) where
  toFun p := (f.sumAl4 * p.1 + f.sumAl3 * p.2.1 + f.sumAl2 * p.2.2, f.sumAl3 * p.1 + f.sumAl2 * p.2.1 + f.sumAl * p.2.2, f.sumAl2 * p.1 + f.sumAl * p.2.1 + f.count * p.2.2)
  map_add' p q := by
    refine Prod.ext ?_ (Prod.ext ?_ ?_) <;> simp only [Prod.fst_add, Prod.snd_add] <;> ring
  map_smul' c p := by
    refine Prod.ext ?_ (Prod.ext ?_ ?_) <;> simp only [Prod.smul_fst, Prod.smul_snd, smul_eq_mul, RingHom.id_apply] <;> ring

theorem three_roots {e0 e1 e2 x y z : ℝ} (hxy : x ≠ y) (hxz : x ≠ z) (hyz : y ≠ z) (hx : e0 * x ^ 2 + e1 * x + e2 = 0) (hy : e0 * y ^ 2 + e1 * y + e2 = 0)
    (hz : e0 * z ^ 2 + e1 * z + e2 = 0) : e0 = 0 ∧ e1 = 0 ∧ e2 = 0 := by
  have h1 : e0 * (x + y) + e1 = 0 := by
    have : (x - y) * (e0 * (x + y) + e1) = 0 := by linear_combination hx - hy
    rcases mul_eq_zero.1 this with h | h
    · exact absurd (sub_eq_zero.1 h) hxy
    · exact h
  have h2 : e0 * (x + z) + e1 = 0 := by
    have : (x - z) * (e0 * (x + z) + e1) = 0 := by linear_combination hx - hz
    rcases mul_eq_zero.1 this with h | h
    · exact absurd (sub_eq_zero.1 h) hxz
    · exact h
  have h3 : e0 = 0 := by
    have : (y - z) * e0 = 0 := by linear_combination h1 - h2
    rcases mul_eq_zero.1 this with h | h
    · exact absurd (sub_eq_zero.1 h) hyz
    · exact h
  subst h3
  have h4 : e1 = 0 := by simpa using h1
  subst h4
  exact ⟨rfl, rfl, by simpa using hx⟩

theorem solvable {f : ParabolaFit} {d : List (ℝ × ℝ)} (hs : Sums f d) (hn : f.count = d.length) {x y z : ℝ × ℝ} (hx : x ∈ d) (hy : y ∈ d) (hz : z ∈ d)
    (hxy : x.1 ≠ y.1) (hxz : x.1 ≠ z.1) (hyz : y.1 ≠ z.1) : ∃! p : ℝ × ℝ × ℝ, f.Solves p.1 p.2.1 p.2.2 := by
  have hinj : Function.Injective (normalMap f) := by
    rw [injective_iff_map_eq_zero]
    intro e he
    have e1 := congrArg Prod.fst he
    have e2 := congrArg (fun t => t.2.1) he
    have e3 := congrArg (fun t => t.2.2) he
    simp only [normalMap, LinearMap.coe_mk, AddHom.coe_mk, Prod.fst_zero, Prod.snd_zero] at e1 e2 e3
    have hq := quadForm_eq d e.1 e.2.1 e.2.2
    rw [← hs.a4, ← hs.a3, ← hs.a2, ← hs.a1, ← hn] at hq
    have h0 : (d.map fun x => (e.1 * x.1 ^ 2 + e.2.1 * x.1 + e.2.2) ^ 2).sum = 0 := by
      rw [hq]; linear_combination e.1 * e1 + e.2.1 * e2 + e.2.2 * e3
    have hr := sum_sq_zero (g := fun x => e.1 * x.1 ^ 2 + e.2.1 * x.1 + e.2.2) h0
    obtain ⟨r1, r2, r3⟩ := three_roots hxy hxz hyz (hr x hx) (hr y hy) (hr z hz)
    exact Prod.ext r1 (Prod.ext r2 r3)
  have hsurj : Function.Surjective (normalMap f) := LinearMap.injective_iff_surjective.1 hinj
  have key : ∀ p : ℝ × ℝ × ℝ, f.Solves p.1 p.2.1 p.2.2 ↔ normalMap f p = (f.sumAl2Theta, f.sumAlTheta, f.sumTheta) := by
    intro p
    simp [ParabolaFit.Solves, normalMap]
  obtain ⟨p, hp⟩ := hsurj (f.sumAl2Theta, f.sumAlTheta, f.sumTheta)
  exact ⟨p, (key p).2 hp, fun q hq => hinj (((key q).1 hq).trans hp.symm)⟩

end Verif.PyPoly
