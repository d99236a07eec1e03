import Verif.FaceStats.Reach

/-! # Statistics without supersampling: the table of marks never appears, bounding boxes do not matter -/

set_option linter.unusedSectionVars false

namespace Verif.FaceStats
open Verif Verif.GeoMap Verif.LabelImage

variable {K V : Type} [Field K] [LinearOrder K] [FloorRing K]

theorem bind_bind {A B C : Type} (o : Outcome A) (f : A → Outcome B) (g : B → Outcome C) : (o.bind f).bind g = o.bind fun a => (f a).bind g := by
  cases o <;> rfl

/-- No table of marks, and no minimal number of samples. -/
def Plain (st : Stats V) : Prop := st.ss = none ∧ st.minCount = 0

/-- The same image, with boxes that contain everything. -/
def Env.all (env : Env K V) : Env K V := ⟨env.orig, fun _ _ _ => true⟩

theorem Env.all_covers (env : Env K V) : BoxesCover env.all := fun _ _ _ _ _ => rfl

/-- Two computations agree, and results are plain. -/
def SamePlain (a b : Outcome (Stats V)) : Prop := a = b ∧ ∀ st, a = .ok st → Plain st

theorem SamePlain.bind {a b : Outcome (Stats V)} {f g : Stats V → Outcome (Stats V)} (h : SamePlain a b) (hf : ∀ st, Plain st → SamePlain (f st) (g st)) :
    SamePlain (a.bind f) (b.bind g) := by
  obtain ⟨rfl, h2⟩ := h
  cases a with
  | ok st => exact hf st (h2 st rfl)
  | precond => exact ⟨rfl, fun _ h => by cases h⟩
  | ub => exact ⟨rfl, fun _ h => by cases h⟩
  | hang => exact ⟨rfl, fun _ h => by cases h⟩

theorem functor_bind {st : Stats V} {f : Nat} {g g' : Multiset V → Outcome (Stats V)} (h : ∀ a, SamePlain (g a) (g' a)) :
    SamePlain ((st.functor f).bind g) ((st.functor f).bind g') := by
  cases st.functor f with
  | ok a => exact h a
  | precond => exact ⟨rfl, fun _ h => by cases h⟩
  | ub => exact ⟨rfl, fun _ h => by cases h⟩
  | hang => exact ⟨rfl, fun _ h => by cases h⟩

theorem SamePlain.ok {st : Stats V} (h : Plain st) : SamePlain (.ok st) (.ok st) := ⟨rfl, fun _ e => by cases e; exact h⟩

theorem check_plain {st : Stats V} (h : Plain st) (f area : Nat) : SamePlain (check st f area) (check st f area) := by
  unfold check
  refine functor_bind fun a => ?_
  dsimp only
  split_ifs
  · exact ⟨rfl, fun _ h => by cases h⟩
  · exact .ok h

theorem preMerge_plain (env : Env K V) (m : LMap K) {st : Stats V} (h : Plain st) (l r : Nat) :
    SamePlain (preMerge env m st l r) (preMerge env.all m st l r) := by
  unfold preMerge
  refine functor_bind fun a => functor_bind fun b => ?_
  dsimp only
  rw [h.1]
  exact .ok ⟨rfl, h.2⟩

theorem postMerge_plain {st : Stats V} (h : Plain st) (f area : Nat) : SamePlain (postMerge st f area) (postMerge st f area) := by
  obtain ⟨c, sz, fn, ss, ct, mg, ms, l1, l2⟩ := st
  have h1 : ss = none := h.1
  have h2 : c = 0 := h.2
  subst h1 h2
  unfold postMerge
  exact functor_bind fun a => check_plain ⟨rfl, rfl⟩ _ _

theorem associated_plain (env : Env K V) (m : LMap K) {st : Stats V} (h : Plain st) (f : Nat) (px : List (Int × Int)) :
    SamePlain (associated env m st f px) (associated env.all m st f px) := by
  unfold associated
  split_ifs
  · exact .ok h
  · obtain ⟨c, sz, fn, ss, ct, mg, ms, l1, l2⟩ := st
    have h1 : ss = none := h.1
    have h2 : c = 0 := h.2
    subst h1 h2
    unfold associate
    exact functor_bind fun a => check_plain ⟨rfl, rfl⟩ _ _

/-- … together with the map. -/
def SamePlain₂ (a b : Outcome (LMap K × Stats V)) : Prop := a = b ∧ ∀ n st, a = .ok (n, st) → Plain st

theorem SamePlain.pair {a b : Outcome (Stats V)} (h : SamePlain a b) (n : LMap K) :
    SamePlain₂ (a.bind fun st => .ok (n, st)) (b.bind fun st => .ok (n, st)) := by
  obtain ⟨rfl, h2⟩ := h
  refine ⟨rfl, fun n' st e => ?_⟩
  obtain ⟨st', e1, e2⟩ := Outcome.bind_eq_ok.mp e
  cases e2
  exact h2 _ e1

theorem SamePlain₂.refl_ok {st : Stats V} (h : Plain st) (n : LMap K) : SamePlain₂ (.ok (n, st)) (.ok (n, st)) :=
  ⟨rfl, fun _ _ e => by cases e; exact h⟩

theorem SamePlain₂.fail {o : Outcome (LMap K × Stats V)} (h : ∀ x, o ≠ .ok x) : SamePlain₂ o o := ⟨rfl, fun _ _ e => absurd e (h _)⟩

theorem bind_plain₂ {A : Type} (o : Outcome A) {g g' : A → Outcome (LMap K × Stats V)} (h : ∀ a, SamePlain₂ (g a) (g' a)) :
    SamePlain₂ (o.bind g) (o.bind g') := by
  cases o with
  | ok a => exact h a
  | precond => exact ⟨rfl, fun _ _ h => by cases h⟩
  | ub => exact ⟨rfl, fun _ _ h => by cases h⟩
  | hang => exact ⟨rfl, fun _ _ h => by cases h⟩

theorem mergeFaces_plain (env : Env K V) (h : Hooks K) (asked : Bool) (m : LMap K) {st : Stats V} (hs : Plain st) (d : Int) :
    SamePlain₂ (mergeFaces env h asked m st d) (mergeFaces env.all h asked m st d) := by
  unfold mergeFaces
  refine bind_plain₂ _ fun e => bind_plain₂ _ fun r => ?_
  obtain ⟨r, n, px⟩ := r
  refine bind_plain₂ _ fun sides => ?_
  obtain ⟨_ | left, _ | right⟩ := sides
  · exact .fail (fun _ h => by cases h)
  · exact .fail (fun _ h => by cases h)
  · exact .fail (fun _ h => by cases h)
  · cases r with
    | none =>
      cases asked with
      | false => exact .refl_ok hs n
      | true => exact (preMerge_plain env m hs left right).pair n
    | some f =>
      have := ((preMerge_plain env m hs left right).bind fun st1 h1 => (postMerge_plain h1 f (pixelArea m.g left + pixelArea m.g right)).bind
        fun st2 h2 => associated_plain env n h2 f px).pair n
      simp only [bind_bind] at this
      exact this

theorem removeBridge_plain (env : Env K V) (h : Hooks K) (m : LMap K) {st : Stats V} (hs : Plain st) (d : Int) :
    SamePlain₂ (removeBridge env h m st d) (removeBridge env.all h m st d) := by
  unfold removeBridge
  refine bind_plain₂ _ fun r => ?_
  obtain ⟨r, n, px⟩ := r
  cases r with
  | none => exact .refl_ok hs n
  | some f => exact (associated_plain env n hs f px).pair n

theorem run_plain (env : Env K V) (h : Hooks K) (asked : Bool) (m : LMap K) {st : Stats V} (hs : Plain st) (op : LOp K) :
    SamePlain₂ (run env h asked m st op) (run env.all h asked m st op) := by
  have quiet : SamePlain₂ ((op.run h m).map fun n => (n, st)) ((op.run h m).map fun n => (n, st)) := by
    refine ⟨rfl, fun n' st' e => ?_⟩
    obtain ⟨n, -, e2⟩ := Outcome.bind_eq_ok.mp e
    cases e2
    exact hs
  cases op with
  | mergeFaces d => exact mergeFaces_plain env h asked m hs d
  | removeBridge d => exact removeBridge_plain env h m hs d
  | removeEdge d =>
    show SamePlain₂ (removeEdge env h asked m st d) (removeEdge env.all h asked m st d)
    unfold removeEdge
    refine bind_plain₂ _ fun e => ?_
    split_ifs
    · exact removeBridge_plain env h m hs d
    · exact mergeFaces_plain env h asked m hs d
  | addNode p l => exact quiet
  | removeIsolatedNode k => exact quiet
  | area f => exact quiet
  | setFlags l fl => exact quiet
  | mergeEdges d => exact quiet
  | splitEdge l i np => exact quiet

/-- The inspection of the image does not use the boxes. -/
theorem construct_box (env : Env K V) (grid : Nat → Nat → List V) (c : Nat) (m : LMap K) : construct env grid c m = construct env.all grid c m := by
  have : ∀ size l fn, inspect env m size l fn = inspect env.all m size l fn := by
    intro size l
    induction l with
    | nil => intro fn; rfl
    | cons p ps ih =>
      intro fn
      unfold inspect
      congr 1
      funext v
      split_ifs
      · cases fn v.toNat with
        | none => rfl
        | some a => exact ih _
      · rfl
      · exact ih _
  unfold construct
  simp only [this]

/-! ### The minimal number of samples never changes -/

def KeepsMin (c : Nat) (o : Outcome (Stats V)) : Prop := ∀ st, o = .ok st → st.minCount = c

theorem KeepsMin.bind {c : Nat} {o : Outcome (Stats V)} {f : Stats V → Outcome (Stats V)} (h : KeepsMin c o) (hf : ∀ st, st.minCount = c → KeepsMin c (f st)) :
    KeepsMin c (o.bind f) := by
  intro st e
  obtain ⟨st', e1, e2⟩ := Outcome.bind_eq_ok.mp e
  exact hf st' (h st' e1) st e2

theorem KeepsMin.any {c : Nat} {A : Type} {o : Outcome A} {f : A → Outcome (Stats V)} (hf : ∀ a, KeepsMin c (f a)) : KeepsMin c (o.bind f) := by
  intro st e
  obtain ⟨a, -, e2⟩ := Outcome.bind_eq_ok.mp e
  exact hf a st e2

theorem KeepsMin.ok {st : Stats V} : KeepsMin st.minCount (.ok st) := fun _ e => by cases e; rfl

theorem check_min (st : Stats V) (f area : Nat) : KeepsMin st.minCount (check st f area) := by
  unfold check
  refine .any fun a => ?_
  dsimp only
  split_ifs
  · intro _ h; cases h
  · exact .ok

theorem preMerge_min (env : Env K V) (m : LMap K) (st : Stats V) (l r : Nat) : KeepsMin st.minCount (preMerge env m st l r) := by
  unfold preMerge
  refine .any fun a => .any fun b => ?_
  cases st.ss with
  | none => intro _ e; cases e; rfl
  | some t =>
    dsimp only
    split_ifs <;> (intro _ e; cases e; rfl)

theorem postMerge_min (st : Stats V) (f area : Nat) : KeepsMin st.minCount (postMerge st f area) := by
  obtain ⟨c, sz, fn, ss, ct, mg, ms, l1, l2⟩ := st
  unfold postMerge
  refine .any fun a => ?_
  cases ss with
  | none => exact check_min ⟨c, sz, _, none, ct, mg, ms, l1, l2⟩ _ _
  | some t => exact .any fun x => check_min ⟨c, sz, _, x.1, x.2, mg, ms, l1, l2⟩ _ _

theorem associated_min (env : Env K V) (m : LMap K) (st : Stats V) (f : Nat) (px : List (Int × Int)) : KeepsMin st.minCount (associated env m st f px) := by
  unfold associated
  split_ifs
  · exact .ok
  · obtain ⟨c, sz, fn, ss, ct, mg, ms, l1, l2⟩ := st
    unfold associate
    refine .any fun a => ?_
    cases ss with
    | none => exact check_min ⟨c, sz, _, none, ct, mg, ms, l1, l2⟩ _ _
    | some t =>
      dsimp only
      split_ifs
      · intro _ e; cases e; rfl
      · exact check_min ⟨c, sz, _, _, _, mg, ms, l1, l2⟩ _ _
      · exact check_min ⟨c, sz, _, some t, ct, mg, ms, l1, l2⟩ _ _

theorem mergeFaces_min {env : Env K V} {h : Hooks K} {asked : Bool} {m n : LMap K} {st st' : Stats V} {d : Int}
    (e : mergeFaces env h asked m st d = .ok (n, st')) : st'.minCount = st.minCount := by
  unfold mergeFaces at e
  obtain ⟨e0, -, e⟩ := Outcome.bind_eq_ok.mp e
  obtain ⟨⟨r, n1, px⟩, -, e⟩ := Outcome.bind_eq_ok.mp e
  obtain ⟨⟨_ | left, _ | right⟩, -, e⟩ := Outcome.bind_eq_ok.mp e
  · cases e
  · cases e
  · cases e
  · cases r with
    | none =>
      cases asked with
      | false => cases e; rfl
      | true =>
        obtain ⟨st1, e1, e⟩ := Outcome.bind_eq_ok.mp e
        cases e
        exact preMerge_min _ _ _ _ _ _ e1
    | some f =>
      obtain ⟨st1, e1, e⟩ := Outcome.bind_eq_ok.mp e
      obtain ⟨st2, e2, e⟩ := Outcome.bind_eq_ok.mp e
      obtain ⟨st3, e3, e⟩ := Outcome.bind_eq_ok.mp e
      cases e
      rw [associated_min _ _ _ _ _ _ e3, postMerge_min _ _ _ _ e2, preMerge_min _ _ _ _ _ _ e1]

theorem removeBridge_min {env : Env K V} {h : Hooks K} {m n : LMap K} {st st' : Stats V} {d : Int}
    (e : removeBridge env h m st d = .ok (n, st')) : st'.minCount = st.minCount := by
  unfold removeBridge at e
  obtain ⟨⟨r, n1, px⟩, -, e⟩ := Outcome.bind_eq_ok.mp e
  cases r with
  | none => cases e; rfl
  | some f =>
    obtain ⟨st3, e3, e⟩ := Outcome.bind_eq_ok.mp e
    cases e
    exact associated_min _ _ _ _ _ _ e3

theorem run_min {env : Env K V} {h : Hooks K} {asked : Bool} {m n : LMap K} {st st' : Stats V} {op : LOp K}
    (e : run env h asked m st op = .ok (n, st')) : st'.minCount = st.minCount := by
  have quiet : ((op.run h m).map fun n => (n, st)) = .ok (n, st') → st'.minCount = st.minCount := by
    intro e
    obtain ⟨n, -, e2⟩ := Outcome.bind_eq_ok.mp e
    cases e2
    rfl
  cases op with
  | mergeFaces d => exact mergeFaces_min e
  | removeBridge d => exact removeBridge_min e
  | removeEdge d =>
    unfold run removeEdge at e
    obtain ⟨e0, -, e⟩ := Outcome.bind_eq_ok.mp e
    split_ifs at e
    · exact removeBridge_min e
    · exact mergeFaces_min e
  | addNode p l => exact quiet e
  | removeIsolatedNode k => exact quiet e
  | area f => exact quiet e
  | setFlags l fl => exact quiet e
  | mergeEdges d => exact quiet e
  | splitEdge l i np => exact quiet e

theorem SReach.plain {env : Env K V} {m : LMap K} {st : Stats V} (h : SReach env m st)
    (h0 : st.minCount = 0) : SReach env.all m st ∧ Plain st := by
  induction h with
  | new grid c hm e =>
    refine ⟨.new grid c hm (by rw [← construct_box]; exact e), ?_, h0⟩
    unfold construct at e
    obtain ⟨fn, -, e⟩ := Outcome.bind_eq_ok.mp e
    dsimp only at e
    split_ifs at e with hc
    · cases e; rfl
    all_goals (cases e; exact absurd h0 hc)
  | call hk asked op _ hl hf e ih =>
    obtain ⟨h1, h2⟩ := ih (by rw [← run_min e]; exact h0)
    obtain ⟨q1, q2⟩ := run_plain env hk asked _ h2 op
    exact ⟨.call hk asked op h1 hl hf (by rw [← q1]; exact e), q2 _ _ e⟩

end Verif.FaceStats
