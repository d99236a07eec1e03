import Verif.CellImage.Lemmas

/-!
# C40: packed cell pixels and serialised darts

`Storable t`: the four cell types a pixel can hold.  The two combined values of the
enum (`CellTypeVertexOrLine`, `CellTypeErrorOrLine`) are not storable.
-/

namespace Verif.CellImage.Props

open Verif.CellImage

/-- The cell types that name a kind of cell, not a rule pattern. -/
def Storable (t : CellType) : Prop :=
  t = .region ∨ t = .line ∨ t = .vertex ∨ t = .error

theorem Storable.ne {t : CellType} (h : Storable t) : t ≠ .vertexOrLine ∧ t ≠ .errorOrLine := by
  rcases h with h | h | h | h <;> subst h <;> decide

/-- C40: `CellPixel(type, label)` gives type and label back, for every storable type
and every label below `2^30`. -/
theorem cellPixel_roundtrip (t : CellType) (l : Nat) (ht : Storable t) (hl : l < 2 ^ 30) :
    (CellPixel.mk' t l).type = t ∧ (CellPixel.mk' t l).label = l ∧
      (CellPixel.mk' t l).bits < 2 ^ 32 := by
  have hc := code_lt ht.ne
  simp only [CellPixel.mk', CellPixel.type, CellPixel.label, pack_eq hc, and_three, shr_eq,
    Nat.mod_eq_of_lt hl]
  refine ⟨?_, by omega, by omega⟩
  rw [show (l * 4 + t.code) % 4 = t.code by omega, ofCode_code]

/-- C40, exact limits: the round trip holds only for labels below `2^30`, whatever the
type; larger labels of the `unsigned int` range come back reduced modulo `2^30`. -/
theorem cellPixel_label_limit (t : CellType) (l : Nat) (ht : Storable t) :
    (CellPixel.mk' t l).label = l % 2 ^ 30 ∧ (CellPixel.mk' t l).type = t := by
  have hc := code_lt ht.ne
  simp only [CellPixel.mk', CellPixel.type, CellPixel.label, pack_eq hc, and_three, shr_eq]
  refine ⟨by omega, ?_⟩
  rw [show (l % 2 ^ 30 * 4 + t.code) % 4 = t.code by omega, ofCode_code]

/-- C40: the two combined enum values do not survive in a pixel, and they change the
label of every even label. -/
theorem cellPixel_combined (l : Nat) (hl : l < 2 ^ 30) :
    (CellPixel.mk' .vertexOrLine l).type = .region ∧
    (CellPixel.mk' .errorOrLine l).type = .line ∧
    (l % 2 = 0 → (CellPixel.mk' .vertexOrLine l).label = l + 1 ∧
      (CellPixel.mk' .errorOrLine l).label = l + 1) := by
  have key : ∀ c, c = 4 ∨ c = 5 → ((shl l 2 ||| c) % 4 = c - 4) ∧
      (l % 2 = 0 → (shl l 2 ||| c) / 4 = l + 1) := by
    intro c hc
    rw [shl_eq_mod (by norm_num), Nat.mod_eq_of_lt hl]
    refine ⟨?_, ?_⟩
    · have h1 : (l * 2 ^ 2 ||| c) % 2 ^ 2 = (l * 2 ^ 2) % 2 ^ 2 ||| c % 2 ^ 2 := Nat.or_mod_two_pow
      norm_num at h1
      rcases hc with rfl | rfl <;> norm_num at h1 ⊢ <;> omega
    · intro h2
      obtain ⟨m, rfl⟩ : ∃ m, l = 2 * m := ⟨l / 2, by omega⟩
      have : 2 * m * 2 ^ 2 = m * 2 ^ 3 := by ring
      rw [this, mul_or (k := 3) (by rcases hc with rfl | rfl <;> norm_num)]
      rcases hc with rfl | rfl <;> omega
  have k4 := key 4 (by simp)
  have k5 := key 5 (by simp)
  simp only [CellPixel.mk', CellPixel.type, CellPixel.label, CellType.code, and_three, shr_eq]
  norm_num
  norm_num at k4 k5
  rw [k4.1, k5.1]
  exact ⟨rfl, rfl, fun h => ⟨k4.2 h, k5.2 h⟩⟩

/-- C40: setting the type keeps the label; setting the label keeps the type; the
two-argument setters set both; for every pixel of the 32-bit word. -/
theorem cellPixel_setters (p : CellPixel) (hp : p.bits < 2 ^ 32) (t : CellType) (l : Nat)
    (ht : Storable t) (hl : l < 2 ^ 30) :
    (p.setType t).type = t ∧ (p.setType t).label = p.label ∧
    (p.setLabel l).label = l ∧ (p.setLabel l).type = p.type ∧
    (p.setType2 t l).type = t ∧ (p.setType2 t l).label = l ∧
    (p.setLabel2 l t).type = t ∧ (p.setLabel2 l t).label = l := by
  have hpl : p.label < 2 ^ 30 := by simp only [CellPixel.label, shr_eq]; omega
  have hps : Storable p.type := by
    have : p.bits % 4 < 4 := by omega
    simp only [CellPixel.type, and_three]
    generalize p.bits % 4 = n at this
    match n, this with
    | 0, _ => simp [CellType.ofCode, Storable]
    | 1, _ => simp [CellType.ofCode, Storable]
    | 2, _ => simp [CellType.ofCode, Storable]
    | 3, _ => simp [CellType.ofCode, Storable]
  have a := cellPixel_roundtrip t p.label ht hpl
  have b := cellPixel_roundtrip p.type l hps hl
  have c := cellPixel_roundtrip t l ht hl
  exact ⟨a.1, a.2.1, b.2.1, b.1, c.1, c.2.1, c.1, c.2.1⟩

/-- C40: two pixels compare equal exactly if they have the same type and label. -/
theorem cellPixel_eq (p q : CellPixel) :
    p.eq q = true ↔ p.type = q.type ∧ p.label = q.label := by
  simp only [CellPixel.eq, CellPixel.type, CellPixel.label, and_three, shr_eq, beq_iff_eq]
  constructor
  · intro h; rw [h]; exact ⟨rfl, rfl⟩
  · intro ⟨h1, h2⟩
    have h3 : p.bits % 4 = q.bits % 4 := by
      have := congrArg CellType.code h1
      rwa [code_ofCode (by omega), code_ofCode (by omega)] at this
    omega

/-- C40: a pixel written as `int` and read back is the same pixel. -/
theorem cellPixel_serialize (p : CellPixel) (hp : p.bits < 2 ^ 32) :
    deserializePixel (serializePixel p) = p ∧
      -2 ^ 31 ≤ serializePixel p ∧ serializePixel p < 2 ^ 31 := by
  obtain ⟨b⟩ := p
  simp only at hp
  refine ⟨?_, ?_, ?_⟩
  · simp only [deserializePixel, serializePixel, CellPixel.mk.injEq]
    split <;> omega
  · simp only [serializePixel]; split <;> omega
  · simp only [serializePixel]; split <;> omega

/-- C40: every dart of an image with at most `2^14` pixels per side deserialises to the
same position and direction, and distinct darts get distinct serialisations. -/
theorem dart_roundtrip (d : DartPos) (hx : d.x < 2 ^ 14) (hy : d.y < 2 ^ 14)
    (hd : d.dir < 8) :
    deserializeDart (serializeDart d) = d ∧ serializeDart d < 2 ^ 31 := by
  obtain ⟨x, y, dir⟩ := d
  simp only at hx hy hd
  rw [dart_pack hx hy (by omega)]
  simp only [deserializeDart, and_3fff, shr_eq, DartPos.mk.injEq]
  omega

/-- C40, exact limits: a dart whose position does not fit into 14 bits per coordinate
never deserialises to itself. -/
theorem dart_roundtrip_iff (d : DartPos) (hd : d.dir < 8) :
    deserializeDart (serializeDart d) = d ↔ d.x < 2 ^ 14 ∧ d.y < 2 ^ 14 := by
  constructor
  · intro h
    rw [← h]
    simp only [deserializeDart, and_3fff]
    omega
  · intro ⟨hx, hy⟩; exact (dart_roundtrip d hx hy hd).1

/-- C40: distinct darts (in range) have distinct serialisations. -/
theorem dart_injective (d e : DartPos) (hd : d.x < 2 ^ 14 ∧ d.y < 2 ^ 14 ∧ d.dir < 8)
    (he : e.x < 2 ^ 14 ∧ e.y < 2 ^ 14 ∧ e.dir < 8) (h : serializeDart d = serializeDart e) :
    d = e := by
  rw [← (dart_roundtrip d hd.1 hd.2.1 hd.2.2).1, ← (dart_roundtrip e he.1 he.2.1 he.2.2).1, h]

/-- Non-vacuity: a vertex pixel with the largest label. -/
example : Storable .vertex ∧ (CellPixel.mk' .vertex (2 ^ 30 - 1)).label = 2 ^ 30 - 1 := by
  refine ⟨by simp [Storable], by decide +kernel⟩

/-- Non-vacuity: a negative serialised pixel. -/
example : serializePixel (CellPixel.mk' .line (2 ^ 30 - 1)) = -3 := by decide +kernel

/-- Non-vacuity: the last dart of a `2^14 × 2^14` image. -/
example : serializeDart ⟨2 ^ 14 - 1, 2 ^ 14 - 1, 7⟩ = 2 ^ 31 - 1 := by decide +kernel

/-- One pixel beyond: the dart is confused with one in another column. -/
example : deserializeDart (serializeDart ⟨2 ^ 14, 0, 0⟩) = ⟨0, 0, 1⟩ := by decide +kernel

end Verif.CellImage.Props
