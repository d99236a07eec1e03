import Verif.GeoMap.Orbit
import Mathlib.Tactic.Linarith

namespace Verif.GeoMap
open Equiv Equiv.Perm Verif.PermLemmas

theorem skip_apply (f : Perm Int) (x u : Int) :
    skip f x u = if u = x then x else if f u = x then f x else f u := by
  split_ifs with h1 h2
  · subst h1; exact skip_self f u
  · exact skip_of_eq f h2
  · exact skip_of_ne f h2 h1

theorem skip_inv (f : Perm Int) (x : Int) : (skip f x)⁻¹ = skip f⁻¹ x := by
  ext u
  rw [Perm.inv_eq_iff_eq]
  have h1 : f (f⁻¹ u) = u := by simp
  have h2 : f (f⁻¹ x) = x := by simp
  have h3 := f.injective.eq_iff (a := f⁻¹ u) (b := x)
  have h4 := f.injective.eq_iff (a := f⁻¹ x) (b := x)
  have h5 := f.injective.eq_iff (a := f⁻¹ u) (b := f⁻¹ x)
  rw [skip_apply, skip_apply]
  grind

/-- the phi permutation belonging to a sigma permutation -/
theorem Rep.exists_phi {L : Finset Int} {f finv : Int → Int} {π : Perm Int} (h : Rep L f finv π)
    (hs : ∀ d ∈ L, -d ∈ L) : ∃ ψ, Rep L (fun d => finv (-d)) (fun d => -(f d)) ψ := by
  apply Rep.exists_of_closed
  · intro d hd
    refine ⟨h.finv_mem (hs d hd), ?_⟩
    show -(f (finv (-d))) = d
    rw [h.f_finv (hs d hd)]; simp
  · intro d hd
    refine ⟨hs _ (h.f_mem hd), ?_⟩
    show finv (- -(f d)) = d
    rw [neg_neg, h.finv_f hd]

theorem Rep.phi_apply {L : Finset Int} {f finv : Int → Int} {π ψ : Perm Int} (h : Rep L f finv π)
    (hs : ∀ d ∈ L, -d ∈ L) (hψ : Rep L (fun d => finv (-d)) (fun d => -(f d)) ψ) {d : Int} (hd : d ∈ L) :
    ψ d = π⁻¹ (-d) := by
  rw [← hψ.eq d hd, h.eqi _ (hs d hd)]

theorem Rep.phi_mk {L : Finset Int} {f finv : Int → Int} {π ψ : Perm Int} (h : Rep L f finv π)
    (hs : ∀ d ∈ L, -d ∈ L) (e : ∀ d ∈ L, ψ d = π⁻¹ (-d)) (fix : ∀ d, d ∉ L → ψ d = d) :
    Rep L (fun d => finv (-d)) (fun d => -(f d)) ψ := by
  refine ⟨fun d hd => ?_, fun d hd => ?_, fix⟩
  · rw [e d hd]; exact h.eqi _ (hs d hd)
  · show -(f d) = _
    symm
    rw [Perm.inv_eq_iff_eq, h.eq d hd, e _ (hs _ (h.mem hd)), neg_neg]; simp

/-- phi after detaching both darts of an edge -/
theorem Rep.phi_remove {L : Finset Int} {f finv f' finv' : Int → Int} {π ψ : Perm Int} {r s : Int}
    (h : Rep L f finv π) (hs : ∀ d ∈ L, -d ∈ L)
    (hψ : Rep L (fun d => finv (-d)) (fun d => -(f d)) ψ) (hr : r ∈ L) (hrs : s = -r) (h0 : r ≠ 0)
    (h' : Rep ((L.erase r).erase s) f' finv' (skip (skip π r) s)) :
    Rep ((L.erase r).erase s) (fun d => finv' (-d)) (fun d => -(f' d))
      (skip (skip (swap r s * ψ) s) r) := by
  have hsL : s ∈ L := hrs ▸ hs r hr
  have hne : r ≠ s := by omega
  apply h'.phi_mk
  · intro d hd
    simp only [Finset.mem_erase] at hd ⊢
    exact ⟨by omega, by omega, hs d hd.2.2⟩
  · intro u hu
    simp only [Finset.mem_erase] at hu
    obtain ⟨hus, hur, huL⟩ := hu
    rw [skip_inv, skip_inv]
    have e1 := h.phi_apply hs hψ huL
    have e2 := h.phi_apply hs hψ hr
    have e3 := h.phi_apply hs hψ hsL
    rw [show -r = s by omega] at e2
    rw [show -s = r by omega] at e3
    have i1 := ψ.injective.eq_iff (a := u) (b := r)
    have i2 := ψ.injective.eq_iff (a := u) (b := s)
    have i3 := ψ.injective.eq_iff (a := r) (b := s)
    have n1 : -u ≠ r := by omega
    have n2 : -u ≠ s := by omega
    simp only [skip_apply, Perm.mul_apply, swap_apply_def, ← e1, ← e2, ← e3]
    grind
  · intro u hu
    simp only [Finset.mem_erase] at hu
    have i1 : u ∉ L → ψ u = u := hψ.fix u
    simp only [skip_apply, Perm.mul_apply, swap_apply_def]
    grind

set_option maxHeartbeats 1000000 in
/-- one end of an edge takes over the place of `e` in its sigma orbit (`mergeEdges`) -/
theorem Rep.replace {L : Finset Int} {f finv : Int → Int} {π : Perm Int} (h : Rep L f finv π)
    {d1 d2 e : Int} (h1 : d1 ∈ L) (h2 : d2 ∈ L) (he : e ∈ L) (h12 : f d1 = d2) (h21 : f d2 = d1)
    (n12 : d1 ≠ d2) (n1e : d1 ≠ e) (n2e : d2 ≠ e) {f' finv' : Int → Int}
    (hf' : f' = if f e = e then Function.update f d1 d1 else
      Function.update (Function.update f (finv e) d1) d1 (f e))
    (hfi' : finv' = if f e = e then Function.update finv d1 d1 else
      Function.update (Function.update finv (f e) d1) d1 (finv e)) :
    Rep ((L.erase d2).erase e) f' finv' (swap d1 e * skip (skip π d2) d1 * swap d1 e) := by
  have p1 : π d1 = d2 := by rw [← h.eq _ h1, h12]
  have p2 : π d2 = d1 := by rw [← h.eq _ h2, h21]
  have q1 : π⁻¹ d1 = d2 := by rw [Perm.inv_eq_iff_eq, p2]
  have q2 : π⁻¹ d2 = d1 := by rw [Perm.inv_eq_iff_eq, p1]
  have pe := h.eq e he
  have qe := h.eqi e he
  have inj : ∀ a b, π a = π b ↔ a = b := fun a b => π.injective.eq_iff
  have key : ∀ x, f' x = if x = d1 then (if f e = e then d1 else f e) else if x = finv e ∧ f e ≠ e then d1 else f x := by
    intro x; rw [hf']; split_ifs <;> simp only [Function.update_apply] <;> grind
  have keyi : ∀ x, finv' x = if x = d1 then (if f e = e then d1 else finv e) else if x = f e ∧ f e ≠ e then d1 else finv x := by
    intro x; rw [hfi']; split_ifs <;> simp only [Function.update_apply] <;> grind
  have hee : π (π⁻¹ e) = e := by simp
  refine ⟨?_, ?_, ?_⟩
  · intro x hx
    simp only [Finset.mem_erase] at hx
    have ex := h.eq x hx.2.2
    have i1 := inj x e
    have i2 := inj x d1
    have i3 := inj x d2
    have i4 := inj e d1
    have i5 := inj e d2
    have i6 := inj x (π⁻¹ e)
    rw [key]
    simp only [skip_apply, Perm.mul_apply, swap_apply_def]
    grind
  · intro x hx
    simp only [Finset.mem_erase] at hx
    have ex := h.eqi x hx.2.2
    have hxx : π (π⁻¹ x) = x := by simp
    symm
    rw [Perm.inv_eq_iff_eq, keyi]
    have i1 := inj (π⁻¹ x) e
    have i2 := inj (π⁻¹ x) d1
    have i3 := inj (π⁻¹ x) d2
    have i4 := inj e d1
    have i5 := inj e d2
    have i6 := inj (π⁻¹ x) (π⁻¹ e)
    have i7 := inj (π⁻¹ e) e
    have i8 := inj (π⁻¹ e) d1
    have i9 := inj (π⁻¹ e) d2
    simp only [skip_apply, Perm.mul_apply, swap_apply_def]
    grind
  · intro x hx
    simp only [Finset.mem_erase] at hx
    have ex : x ∉ L → π x = x := h.fix x
    have i2 := inj x d1
    have i3 := inj x d2
    have i4 := inj e d1
    have i5 := inj e d2
    simp only [skip_apply, Perm.mul_apply, swap_apply_def]
    grind

set_option maxHeartbeats 1000000 in
/-- phi after `replace` with `e = -d2` -/
theorem Rep.phi_replace {L : Finset Int} {f finv f' finv' : Int → Int} {π ψ : Perm Int} {d1 d2 e : Int}
    (h : Rep L f finv π) (hs : ∀ d ∈ L, -d ∈ L)
    (hψ : Rep L (fun d => finv (-d)) (fun d => -(f d)) ψ) (h1 : d1 ∈ L) (h2 : d2 ∈ L)
    (hed : e = -d2) (h0 : d2 ≠ 0) (h12 : f d1 = d2) (h21 : f d2 = d1) (n12 : d1 ≠ d2) (n1e : d1 ≠ e)
    (h' : Rep ((L.erase d2).erase e) f' finv' (swap d1 e * skip (skip π d2) d1 * swap d1 e)) :
    Rep ((L.erase d2).erase e) (fun d => finv' (-d)) (fun d => -(f' d)) (skip (skip ψ d2) e) := by
  have he : e ∈ L := hed ▸ hs d2 h2
  have p1 : π d1 = d2 := by rw [← h.eq _ h1, h12]
  have p2 : π d2 = d1 := by rw [← h.eq _ h2, h21]
  have inj : ∀ a b, π a = π b ↔ a = b := fun a b => π.injective.eq_iff
  apply h'.phi_mk
  · intro d hd
    simp only [Finset.mem_erase] at hd ⊢
    exact ⟨by omega, by omega, hs d hd.2.2⟩
  · intro u hu
    simp only [Finset.mem_erase] at hu
    obtain ⟨hus, hur, huL⟩ := hu
    symm
    rw [Perm.inv_eq_iff_eq]
    have e1 : π (ψ u) = -u := by rw [h.phi_apply hs hψ huL]; simp
    have e2 : π (ψ d2) = e := by rw [h.phi_apply hs hψ h2, hed]; simp
    have e3 : π (ψ e) = d2 := by rw [h.phi_apply hs hψ he, hed, neg_neg]; simp
    have e4 : ψ e = d1 := by rw [← inj, e3, p1]
    have i1 := inj (ψ u) d1
    have i2 := inj (ψ u) d2
    have i3 := inj (ψ u) e
    have i4 := inj (ψ d2) d1
    have i5 := inj (ψ d2) d2
    have i6 := inj (ψ d2) e
    have i7 := inj e d1
    have i8 := inj e d2
    have j1 := ψ.injective.eq_iff (a := u) (b := d2)
    have j2 := ψ.injective.eq_iff (a := u) (b := e)
    have n1 : -u ≠ d2 := by omega
    have n2 : -u ≠ e := by omega
    simp only [skip_apply, Perm.mul_apply, swap_apply_def]
    grind
  · intro u hu
    simp only [Finset.mem_erase] at hu
    have i1 : u ∉ L → ψ u = u := hψ.fix u
    simp only [skip_apply]
    grind

/-- sigma after `splitEdge`: the new dart `q` takes the place of `e`, and `e`, `r` form a new
orbit -/
theorem Rep.split {L : Finset Int} {f finv : Int → Int} {π : Perm Int} (h : Rep L f finv π)
    {e r q : Int} (he : e ∈ L) (hr : r ∉ L) (hq : q ∉ L) (hrq : r ≠ q) {f' finv' : Int → Int}
    (hf' : f' = if f e = e then
        Function.update (Function.update (Function.update f e r) r e) q q else
      Function.update (Function.update (Function.update (Function.update f e r) r e) (finv e) q) q (f e))
    (hfi' : finv' = if f e = e then
        Function.update (Function.update (Function.update finv r e) e r) q q else
      Function.update (Function.update (Function.update (Function.update finv r e) e r) (f e) q) q (finv e)) :
    Rep (insert q (insert r L)) f' finv' (swap e r * (swap e q * π * swap e q)) := by
  have ner : e ≠ r := fun h => hr (h ▸ he)
  have neq : e ≠ q := fun h => hq (h ▸ he)
  have pr := h.fix r hr
  have pq := h.fix q hq
  have pe := h.eq e he
  have qe := h.eqi e he
  have inj : ∀ a b, π a = π b ↔ a = b := fun a b => π.injective.eq_iff
  have hee : π (π⁻¹ e) = e := by simp
  have m1 : f e ∈ L := h.f_mem he
  have m2 : finv e ∈ L := h.finv_mem he
  have key : ∀ x, f' x = if x = q then (if f e = e then q else f e) else if x = e then r else if x = r then e else
      if x = finv e then q else f x := by
    intro x; rw [hf']
    have i7 := inj (π⁻¹ e) e
    split_ifs <;> simp only [Function.update_apply] <;> grind
  have keyi : ∀ x, finv' x = if x = q then (if f e = e then q else finv e) else if x = e then r else if x = r then e else
      if x = f e then q else finv x := by
    intro x; rw [hfi']
    have i7 := inj (π⁻¹ e) e
    split_ifs <;> simp only [Function.update_apply] <;> grind
  refine ⟨?_, ?_, ?_⟩
  · intro x hx
    simp only [Finset.mem_insert] at hx
    have ex := h.eq x
    have mx := h.mem (d := x)
    have i1 := inj x e
    have i6 := inj x (π⁻¹ e)
    have i7 := inj (π⁻¹ e) e
    have i8 := inj x r
    have i9 := inj x q
    have i10 := inj e r
    have i11 := inj e q
    rw [key]
    simp only [Perm.mul_apply, swap_apply_def]
    grind
  · intro x hx
    simp only [Finset.mem_insert] at hx
    have ex := h.eqi x
    have mx := h.memi (d := x)
    have hxx : π (π⁻¹ x) = x := by simp
    symm
    rw [Perm.inv_eq_iff_eq, keyi]
    have i1 := inj (π⁻¹ x) e
    have i6 := inj (π⁻¹ x) (π⁻¹ e)
    have i7 := inj (π⁻¹ e) e
    have i8 := inj (π⁻¹ x) r
    have i9 := inj (π⁻¹ x) q
    have i10 := inj e r
    have i11 := inj e q
    have i12 := inj (π⁻¹ e) r
    have i13 := inj (π⁻¹ e) q
    simp only [Perm.mul_apply, swap_apply_def]
    grind
  · intro x hx
    simp only [Finset.mem_insert] at hx
    have ex : x ∉ L → π x = x := h.fix x
    have i1 := inj x e
    simp only [Perm.mul_apply, swap_apply_def]
    grind

/-- phi after `split` with `e = -l`, `q = -r`: new phi with the new darts skipped is the old phi -/
theorem Rep.phi_split {L : Finset Int} {f finv f' finv' : Int → Int} {π ψ ψ' : Perm Int} {e r q : Int}
    (h : Rep L f finv π) (hs : ∀ d ∈ L, -d ∈ L)
    (hψ : Rep L (fun d => finv (-d)) (fun d => -(f d)) ψ) (he : e ∈ L) (hr : r ∉ L) (hq : q ∉ L)
    (hrq : q = -r) (h0 : r ≠ 0)
    (h' : Rep (insert q (insert r L)) f' finv' (swap e r * (swap e q * π * swap e q)))
    (hψ' : Rep (insert q (insert r L)) (fun d => finv' (-d)) (fun d => -(f' d)) ψ') :
    ψ = skip (skip ψ' r) q ∧ ψ' (-e) = r ∧ ψ' q = e := by
  have hs' : ∀ d ∈ insert q (insert r L), -d ∈ insert q (insert r L) := by
    intro d hd
    simp only [Finset.mem_insert] at hd ⊢
    rcases hd with rfl | rfl | hd
    · right; left; omega
    · left; omega
    · right; right; exact hs d hd
  have inj : ∀ a b, π a = π b ↔ a = b := fun a b => π.injective.eq_iff
  have ner : e ≠ r := fun h => hr (h ▸ he)
  have neq : e ≠ q := fun h => hq (h ▸ he)
  have pr := h.fix r hr
  have pq := h.fix q hq
  -- values of ψ'
  have v : ∀ d y, d ∈ insert q (insert r L) → (swap e r * (swap e q * π * swap e q)) y = -d → ψ' d = y := by
    intro d y hd hy
    rw [h'.phi_apply hs' hψ' hd, ← hy]; simp
  have me : -e ∈ L := hs e he
  have v1 : ψ' (-e) = r := by
    apply v _ _ (by simp [me])
    simp only [Perm.mul_apply, swap_apply_def]; grind
  have v2 : ψ' q = e := by
    apply v _ _ (by simp)
    simp only [Perm.mul_apply, swap_apply_def]; grind
  refine ⟨?_, v1, v2⟩
  ext x
  by_cases hx : x ∈ L
  · have hex : π (ψ x) = -x := by rw [h.phi_apply hs hψ hx]; simp
    have hmx := hψ.mem hx
    have hxr : x ≠ r := fun h => hr (h ▸ hx)
    have hxq : x ≠ q := fun h => hq (h ▸ hx)
    have hnr : ψ x ≠ r := fun h => hr (h ▸ hmx)
    have hnq : ψ x ≠ q := fun h => hq (h ▸ hmx)
    by_cases c1 : x = -e
    · subst c1
      by_cases c2 : ψ (-e) = e
      · have v3 : ψ' r = q := by
          apply v _ _ (by simp)
          simp only [Perm.mul_apply, swap_apply_def]; grind
        simp only [skip_apply]; grind
      · have v3 : ψ' r = ψ (-e) := by
          apply v _ _ (by simp)
          simp only [Perm.mul_apply, swap_apply_def]; grind
        simp only [skip_apply]; grind
    · by_cases c2 : ψ x = e
      · have v3 : ψ' x = q := by
          apply v _ _ (by simp [hx])
          simp only [Perm.mul_apply, swap_apply_def]; grind
        simp only [skip_apply]; grind
      · have v3 : ψ' x = ψ x := by
          apply v _ _ (by simp [hx])
          simp only [Perm.mul_apply, swap_apply_def]; grind
        simp only [skip_apply]; grind
  · rw [hψ.fix x hx]
    by_cases c1 : x = q
    · subst c1; rw [skip_self]
    · by_cases c2 : x = r
      · subst c2
        rw [skip_apply, skip_self]; simp [c1]
      · have : ψ' x = x := hψ'.fix x (by simp [c1, c2, hx])
        simp only [skip_apply]; grind

end Verif.GeoMap
