import Verif.Views.Spec
/-!
# Lemmas for C120: the machine with heap and spans simulates the one with values
-/

namespace Verif.Views
open Verif.Views.Spec

variable {V : Type}

theorem Heap.get_free (h : Heap V) (a b : Nat) : (h.free a).get b = if b = a then none else h.get b := by
  induction h with
  | nil => simp [Heap.free, Heap.get]
  | cons x t ih =>
    obtain ⟨c, l⟩ := x
    by_cases hc : c = a
    · subst hc
      have : Heap.free ((c, l) :: t) c = Heap.free t c := by simp [Heap.free]
      rw [this, ih]
      by_cases hb : b = c
      · simp [hb]
      · have : (b == c) = false := by simpa using hb
        simp [hb, Heap.get, List.lookup, this]
    · have : Heap.free ((c, l) :: t) a = (c, l) :: Heap.free t a := by simp [Heap.free, hc]
      rw [this]
      by_cases hb : b = c
      · subst hb
        simp [Heap.get, List.lookup, hc]
      · have hbc : (b == c) = false := by simpa using hb
        have : Heap.get ((c, l) :: Heap.free t a) b = Heap.get (Heap.free t a) b := by
          simp [Heap.get, List.lookup, hbc]
        rw [this, ih]
        simp [Heap.get, List.lookup, hbc]

theorem Heap.get_set (h : Heap V) (a b : Nat) (l : List V) :
    (h.set a l).get b = if b = a then some l else h.get b := by
  by_cases hb : b = a
  · simp [Heap.set, Heap.get, hb]
  · have hba : (b == a) = false := by simpa using hb
    have : Heap.get (Heap.set h a l) b = Heap.get (Heap.free h a) b := by
      simp [Heap.set, Heap.get, List.lookup, hba]
    rw [this, Heap.get_free, if_neg hb, if_neg hb]

/-- A vector holds a list: empty vectors have no storage, others their own block. -/
def Holds (h : Heap V) (w : View) (l : List V) : Prop :=
  (w = View.null ∧ l = []) ∨ ∃ x, w = ⟨some x, l.length⟩ ∧ l ≠ [] ∧ h.get x = some l

/-- Vectors and values. -/
structure Rel (s : State V) (v : Nat → Arr → List V) : Prop where
  holds : ∀ o a, Holds s.heap (s.vec o a) (v o a)
  inj : ∀ o a p b x, (s.vec o a).data = some x → (s.vec p b).data = some x → o = p ∧ a = b
  owned : ∀ x l, s.heap.get x = some l → ∃ o a, (s.vec o a).data = some x

/-- What operations on vectors of some objects leave as it is. -/
structure Frame (s s' : State V) (P : Nat → Prop) : Prop where
  live : s'.live = s.live
  dim : s'.dim = s.dim
  span : s'.span = s.span
  vec : ∀ q, ¬ P q → s'.vec q = s.vec q

theorem Frame.refl (s : State V) (P : Nat → Prop) : Frame s s P := ⟨rfl, rfl, rfl, fun _ _ => rfl⟩

theorem Frame.trans {s s' s'' : State V} {P : Nat → Prop} (h : Frame s s' P) (h' : Frame s' s'' P) :
    Frame s s'' P :=
  ⟨h'.live.trans h.live, h'.dim.trans h.dim, h'.span.trans h.span,
    fun q hq => (h'.vec q hq).trans (h.vec q hq)⟩

theorem Holds.of_data {h : Heap V} {w : View} {l : List V} {x : Nat} (H : Holds h w l) (hx : w.data = some x) :
    w = ⟨some x, l.length⟩ ∧ l ≠ [] ∧ h.get x = some l := by
  rcases H with ⟨rfl, _⟩ | ⟨y, rfl, h1, h2⟩
  · simp [View.null] at hx
  · simp only [Option.some.injEq] at hx
    subst hx
    exact ⟨rfl, h1, h2⟩

theorem Holds.size {h : Heap V} {w : View} {l : List V} (H : Holds h w l) : w.size = l.length := by
  rcases H with ⟨rfl, rfl⟩ | ⟨y, rfl, _, _⟩ <;> rfl

theorem elems_eq {s : State V} {v : Nat → Arr → List V} (R : Rel s v) (o : Nat) (a : Arr) :
    elems s o a = some (v o a) := by
  rcases R.holds o a with ⟨h1, h2⟩ | ⟨x, h1, _, h3⟩
  · simp [elems, h1, h2, View.null]
  · simp [elems, h1, h3]

theorem upd2_same {α β γ : Type} [DecidableEq α] [DecidableEq β] (f : α → β → γ) (a : α) (b : β) (c : γ) :
    upd2 f a b c a b = c := by simp [upd2]

theorem upd2_ne {α β γ : Type} [DecidableEq α] [DecidableEq β] (f : α → β → γ) (a : α) (b : β) (c : γ)
    {x : α} {y : β} (h : ¬ (x = a ∧ y = b)) : upd2 f a b c x y = f x y := by simp [upd2, h]

/-- Writing the block of one vector. -/
theorem Rel.write {s : State V} {v : Nat → Arr → List V} (R : Rel s v) {o : Nat} {a : Arr} {x : Nat} {l : List V}
    (hx : (s.vec o a).data = some x) (hl : l.length = (v o a).length) :
    Rel { s with heap := s.heap.set x l } (upd2 v o a l) := by
  obtain ⟨h1, h2, h3⟩ := (R.holds o a).of_data hx
  refine ⟨fun p b => ?_, R.inj, fun y l' hy => ?_⟩
  · by_cases hk : p = o ∧ b = a
    · obtain ⟨rfl, rfl⟩ := hk
      rw [upd2_same]
      refine Or.inr ⟨x, by simp [h1, hl], ?_, by simp [Heap.get_set]⟩
      intro h0
      rw [h0] at hl
      exact h2 (List.length_eq_zero_iff.1 hl.symm)
    · rw [upd2_ne _ _ _ _ hk]
      rcases R.holds p b with hn | ⟨y, hy1, hy2, hy3⟩
      · exact Or.inl hn
      · refine Or.inr ⟨y, hy1, hy2, ?_⟩
        have : y ≠ x := fun e => hk (R.inj p b o a x (by simp [hy1, e]) hx)
        simp [Heap.get_set, this, hy3]
  · simp only [Heap.get_set] at hy
    by_cases hyx : y = x
    · exact ⟨o, a, by simp [hx, hyx]⟩
    · exact R.owned y l' (by simpa [hyx] using hy)

/-- Emptying a vector. -/
theorem Rel.release {s : State V} {v : Nat → Arr → List V} (R : Rel s v) {o : Nat} {a : Arr} {x : Nat}
    (hx : (s.vec o a).data = some x) :
    Rel { s with heap := s.heap.free x, vec := upd2 s.vec o a .null } (upd2 v o a []) := by
  refine ⟨fun p b => ?_, fun p b q c y hy hy' => ?_, fun y l' hy => ?_⟩
  · by_cases hk : p = o ∧ b = a
    · obtain ⟨rfl, rfl⟩ := hk
      simp only [upd2_same]
      exact Or.inl ⟨rfl, rfl⟩
    · simp only [upd2_ne _ _ _ _ hk]
      rcases R.holds p b with hn | ⟨y, hy1, hy2, hy3⟩
      · exact Or.inl hn
      · refine Or.inr ⟨y, hy1, hy2, ?_⟩
        have : y ≠ x := fun e => hk (R.inj p b o a x (by simp [hy1, e]) hx)
        simp [Heap.get_free, this, hy3]
  · by_cases hk : p = o ∧ b = a
    · obtain ⟨rfl, rfl⟩ := hk
      simp [upd2_same, View.null] at hy
    · by_cases hk' : q = o ∧ c = a
      · obtain ⟨rfl, rfl⟩ := hk'
        simp [upd2_same, View.null] at hy'
      · simp only [upd2_ne _ _ _ _ hk] at hy
        simp only [upd2_ne _ _ _ _ hk'] at hy'
        exact R.inj p b q c y hy hy'
  · simp only [Heap.get_free] at hy
    by_cases hyx : y = x
    · simp [hyx] at hy
    · obtain ⟨p, b, hp⟩ := R.owned y l' (by simpa [hyx] using hy)
      refine ⟨p, b, ?_⟩
      have hk : ¬ (p = o ∧ b = a) := by
        rintro ⟨rfl, rfl⟩
        rw [hx] at hp
        exact hyx (Option.some.inj hp).symm
      simpa only [upd2_ne _ _ _ _ hk] using hp

/-- Giving a fresh block to an empty vector. -/
theorem Rel.allocate {s : State V} {v : Nat → Arr → List V} (R : Rel s v) {o : Nat} {a : Arr} {x : Nat} {l : List V}
    (hn : (s.vec o a).data = none) (hx : s.heap.get x = none) (hl : l ≠ []) :
    Rel { s with heap := s.heap.set x l, vec := upd2 s.vec o a ⟨some x, l.length⟩ } (upd2 v o a l) := by
  have hfresh : ∀ p b, (s.vec p b).data ≠ some x := by
    intro p b hp
    have := ((R.holds p b).of_data hp).2.2
    rw [hx] at this
    simp at this
  refine ⟨fun p b => ?_, fun p b q c y hy hy' => ?_, fun y l' hy => ?_⟩
  · by_cases hk : p = o ∧ b = a
    · obtain ⟨rfl, rfl⟩ := hk
      simp only [upd2_same]
      exact Or.inr ⟨x, rfl, hl, by simp [Heap.get_set]⟩
    · simp only [upd2_ne _ _ _ _ hk]
      rcases R.holds p b with h0 | ⟨y, hy1, hy2, hy3⟩
      · exact Or.inl h0
      · refine Or.inr ⟨y, hy1, hy2, ?_⟩
        have : y ≠ x := fun e => hfresh p b (by simp [hy1, e])
        simp [Heap.get_set, this, hy3]
  · by_cases hk : p = o ∧ b = a
    · by_cases hk' : q = o ∧ c = a
      · exact ⟨hk.1.trans hk'.1.symm, hk.2.trans hk'.2.symm⟩
      · obtain ⟨rfl, rfl⟩ := hk
        simp only [upd2_same, Option.some.injEq] at hy
        simp only [upd2_ne _ _ _ _ hk'] at hy'
        exact absurd (hy ▸ hy') (hfresh q c)
    · simp only [upd2_ne _ _ _ _ hk] at hy
      by_cases hk' : q = o ∧ c = a
      · obtain ⟨rfl, rfl⟩ := hk'
        simp only [upd2_same, Option.some.injEq] at hy'
        exact absurd (hy' ▸ hy) (hfresh p b)
      · simp only [upd2_ne _ _ _ _ hk'] at hy'
        exact R.inj p b q c y hy hy'
  · simp only [Heap.get_set] at hy
    by_cases hyx : y = x
    · exact ⟨o, a, by simp [upd2_same, hyx]⟩
    · obtain ⟨p, b, hp⟩ := R.owned y l' (by simpa [hyx] using hy)
      refine ⟨p, b, ?_⟩
      have hk : ¬ (p = o ∧ b = a) := by
        rintro ⟨rfl, rfl⟩
        rw [hn] at hp
        simp at hp
      simpa only [upd2_ne _ _ _ _ hk] using hp

theorem upd2_self {α β γ : Type} [DecidableEq α] [DecidableEq β] (f : α → β → γ) (a : α) (b : β) (c : γ)
    (h : f a b = c) : upd2 f a b c = f := by
  funext x y
  by_cases hk : x = a ∧ y = b
  · obtain ⟨rfl, rfl⟩ := hk
    rw [upd2_same, h]
  · rw [upd2_ne _ _ _ _ hk]

theorem upd2_upd2 {α β γ : Type} [DecidableEq α] [DecidableEq β] (f : α → β → γ) (a : α) (b : β) (c d : γ) :
    upd2 (upd2 f a b c) a b d = upd2 f a b d := by
  funext x y
  by_cases hk : x = a ∧ y = b
  · obtain ⟨rfl, rfl⟩ := hk
    rw [upd2_same, upd2_same]
  · rw [upd2_ne _ _ _ _ hk, upd2_ne _ _ _ _ hk, upd2_ne _ _ _ _ hk]

theorem put_rel {pick : Heap V → Nat} (hp : ∀ h, Heap.get h (pick h) = none) {s : State V}
    {v : Nat → Arr → List V} (R : Rel s v) (o : Nat) (a : Arr) (l : List V) :
    ∃ s', put pick s o a l = some s' ∧ Rel s' (upd2 v o a l) ∧ Frame s s' (· = o) := by
  have fr : ∀ (h : Heap V) (w : View), Frame s { s with heap := h, vec := upd2 s.vec o a w } (· = o) := by
    refine fun h w => ⟨rfl, rfl, rfl, fun q hq => ?_⟩
    funext b
    exact upd2_ne _ _ _ _ (fun e => hq e.1)
  have hsz := (R.holds o a).size
  unfold put
  by_cases hs : (s.vec o a).size = l.length
  · rw [if_pos hs]
    cases hd : (s.vec o a).data with
    | none =>
      refine ⟨s, rfl, ?_, Frame.refl _ _⟩
      rcases R.holds o a with ⟨h1, h2⟩ | ⟨x, h1, _, _⟩
      · rw [upd2_self]
        · exact R
        · rw [h2] at hsz ⊢
          rw [hs] at hsz
          exact (List.length_eq_zero_iff.1 hsz).symm
      · simp [h1] at hd
    | some x =>
      obtain ⟨h1, h2, h3⟩ := (R.holds o a).of_data hd
      simp only [h3]
      exact ⟨_, rfl, R.write hd (by rw [← hs, hsz]), ⟨rfl, rfl, rfl, fun _ _ => rfl⟩⟩
  · rw [if_neg hs]
    cases hd : (s.vec o a).data with
    | none =>
      have hv : v o a = [] ∧ s.vec o a = .null := by
        rcases R.holds o a with ⟨h1, h2⟩ | ⟨x, h1, _, _⟩
        · exact ⟨h2, h1⟩
        · simp [h1] at hd
      have hl : l ≠ [] := by
        rintro rfl
        rw [hsz, hv.1] at hs
        exact hs rfl
      simp only [if_neg hl]
      exact ⟨_, rfl, R.allocate hd (hp _) hl, fr _ _⟩
    | some x =>
      obtain ⟨h1, h2, h3⟩ := (R.holds o a).of_data hd
      simp only [h3]
      by_cases hl : l = []
      · subst hl
        simp only [if_pos]
        exact ⟨_, rfl, R.release hd, fr _ _⟩
      · simp only [if_neg hl]
        refine ⟨_, rfl, ?_, fr _ _⟩
        have R' := (R.release hd).allocate (o := o) (a := a) (x := pick (s.heap.free x)) (l := l)
          (by simp [upd2_same, View.null]) (hp _) hl
        simpa only [upd2_upd2] using R'

theorem copyVec_rel {pick : Heap V → Nat} (hp : ∀ h, Heap.get h (pick h) = none) {s : State V}
    {v : Nat → Arr → List V} (R : Rel s v) (o p : Nat) (a : Arr) :
    ∃ s', copyVec pick o p s a = some s' ∧ Rel s' (upd2 v o a (v p a)) ∧ Frame s s' (· = o) := by
  unfold copyVec
  rw [elems_eq R]
  exact put_rel hp R o a _

theorem swapVec_rel {s : State V} {v : Nat → Arr → List V} (R : Rel s v) {o p : Nat} (hop : o ≠ p) (a : Arr) :
    ∃ s', swapVec o p s a = some s' ∧ Rel s' (upd2 (upd2 v o a (v p a)) p a (v o a)) ∧
      Frame s s' (fun q => q = o ∨ q = p) := by
  refine ⟨_, rfl, ?_, ⟨rfl, rfl, rfl, fun q hq => ?_⟩⟩
  · -- every vector after the exchange is one before it
    let σ : Nat → Arr → Nat := fun q b => if b = a then (if q = o then p else if q = p then o else q) else q
    have hσ : ∀ {γ : Type} (f : Nat → Arr → γ) q b,
        upd2 (upd2 f o a (f p a)) p a (f o a) q b = f (σ q b) b := by
      intro γ f q b
      simp only [upd2, σ]
      by_cases hb : b = a
      · subst hb
        by_cases h1 : q = p
        · subst h1; simp [Ne.symm hop]
        · by_cases h2 : q = o
          · subst h2; simp [h1]
          · simp [h1, h2]
      · simp [hb]
    have hinj : ∀ q b q', σ q b = σ q' b → q = q' := by
      intro q b q' h
      simp only [σ] at h
      by_cases hb : b = a
      · simp only [hb, if_true] at h
        split at h <;> split at h <;> (try split at h) <;> (try split at h) <;> simp_all
      · simpa [hb] using h
    have hsur : ∀ q b, σ (σ q b) b = q := by
      intro q b
      apply hinj (σ (σ q b) b) b q
      simp only [σ]
      by_cases hb : b = a
      · simp only [hb, if_true]
        by_cases h1 : q = o
        · subst h1; simp [Ne.symm hop]
        · by_cases h2 : q = p
          · subst h2; simp [h1]
          · simp [h1, h2]
      · simp [hb]
    refine ⟨fun q b => ?_, fun q b q' c x hx hx' => ?_, fun x l hx => ?_⟩
    · simp only [hσ]
      exact R.holds _ _
    · simp only [hσ] at hx hx'
      obtain ⟨h1, h2⟩ := R.inj _ _ _ _ _ hx hx'
      subst h2
      exact ⟨hinj q b q' h1, rfl⟩
    · obtain ⟨q, b, hq⟩ := R.owned x l hx
      refine ⟨σ q b, b, ?_⟩
      simp only [hσ, hsur]
      exact hq
  · funext b
    have h1 : ¬ (q = p ∧ b = a) := fun e => hq (Or.inr e.1)
    have h2 : ¬ (q = o ∧ b = a) := fun e => hq (Or.inl e.1)
    show upd2 _ _ _ _ q b = _
    rw [upd2_ne _ _ _ _ h1, upd2_ne _ _ _ _ h2]

theorem fold_rel {P : Nat → Prop} {st : State V → Arr → Option (State V)}
    {f : (Nat → Arr → List V) → Arr → (Nat → Arr → List V)}
    (h : ∀ s v a, Rel s v → ∃ s', st s a = some s' ∧ Rel s' (f v a) ∧ Frame s s' P) (L : List Arr) :
    ∀ s v, Rel s v → ∃ s', L.foldlM st s = some s' ∧ Rel s' (L.foldl f v) ∧ Frame s s' P := by
  induction L with
  | nil => exact fun s v R => ⟨s, rfl, R, Frame.refl _ _⟩
  | cons a t ih =>
    intro s v R
    obtain ⟨s1, h1, R1, F1⟩ := h s v a R
    obtain ⟨s2, h2, R2, F2⟩ := ih s1 _ R1
    refine ⟨s2, ?_, R2, F1.trans F2⟩
    rw [List.foldlM_cons, h1]
    exact h2

/-- Setting the arrays of one object, closed form. -/
theorem foldl_put (L : List Arr) (o : Nat) (g : Arr → List V) (v : Nat → Arr → List V) (q : Nat) (b : Arr) :
    L.foldl (fun v a => upd2 v o a (g a)) v q b = if q = o ∧ b ∈ L then g b else v q b := by
  induction L generalizing v with
  | nil => simp
  | cons a t ih =>
    rw [List.foldl_cons, ih]
    by_cases hq : q = o
    · by_cases hb : b = a
      · simp [hq, hb, upd2]
      · simp [hq, hb, upd2]
    · simp [hq, upd2]

theorem foldl_copy (L : List Arr) {o p : Nat} (hop : o ≠ p) (v : Nat → Arr → List V) (q : Nat) (b : Arr) :
    L.foldl (fun v a => upd2 v o a (v p a)) v q b = if q = o ∧ b ∈ L then v p b else v q b := by
  induction L generalizing v with
  | nil => simp
  | cons a t ih =>
    rw [List.foldl_cons, ih]
    by_cases hq : q = o
    · by_cases hb : b = a
      · simp [hq, hb, upd2, Ne.symm hop]
      · simp [hq, hb, upd2]
    · simp [hq, upd2]

theorem foldl_swap (L : List Arr) (hL : L.Nodup) {o p : Nat} (hop : o ≠ p) (v : Nat → Arr → List V)
    (q : Nat) (b : Arr) :
    L.foldl (fun v a => upd2 (upd2 v o a (v p a)) p a (v o a)) v q b =
      if b ∈ L then (if q = o then v p b else if q = p then v o b else v q b) else v q b := by
  induction L generalizing v with
  | nil => simp
  | cons a t ih =>
    rw [List.nodup_cons] at hL
    rw [List.foldl_cons, ih hL.2]
    by_cases hb : b = a
    · subst hb
      simp only [hL.1, if_false, List.mem_cons, true_or, if_true]
      by_cases h1 : q = o
      · subst h1; simp [upd2, hop]
      · by_cases h2 : q = p
        · subst h2; simp [upd2, h1]
        · simp [upd2, h1, h2]
    · simp [upd2, hb]

theorem mem_members (a : Arr) : a ∈ members := by cases a <;> simp [members]
theorem mem_assigned (a : Arr) : a ∈ assigned := by cases a <;> simp [assigned]
theorem mem_moved (a : Arr) : a ∈ moved := by cases a <;> simp [moved]

theorem mem_resized (d : Dim) (a : Arr) (n : V) :
    (if a ∈ resized d then List.replicate d.num n else []) = List.replicate (count d a) n := by
  obtain ⟨m, t, l⟩ := d
  cases a <;> cases t <;> cases l <;> simp [resized, count]

/-- A table of spans that binds each of them to the array it is named after, last. -/
def Tab (t : List (Sp × Arr)) : Prop :=
  ∀ (s : State V) (o : Nat) (f : Sp), (bindSpans t o s).span o f = s.vec o (named f)

theorem bind_other (t : List (Sp × Arr)) (o : Nat) (s : State V) (q : Nat) (hq : q ≠ o) :
    (bindSpans t o s).span q = s.span q := by
  have : ∀ (g : Nat → Sp → View), t.foldl (fun f x => upd2 f o x.1 (s.vec o x.2)) g q = g q := by
    induction t with
    | nil => exact fun _ => rfl
    | cons x t ih =>
      intro g
      rw [List.foldl_cons, ih]
      funext b
      exact upd2_ne _ _ _ _ (fun e => hq e.1)
  exact this _

structure Good (C : Cls) : Prop where
  ctor : Tab (V := V) C.ctor
  copy : Tab (V := V) C.copy
  bind : Tab (V := V) C.bind
  move : Tab (V := V) C.move

theorem good_geometry : Good (V := V) geometry := by
  constructor <;> intro s o f <;> cases f <;> simp [geometry, bindSpans, upd2, named]

theorem good_forces : Good (V := V) forces := by
  constructor <;> intro s o f <;> cases f <;> simp [forces, bindSpans, upd2, named]

theorem good_velocity : Good (V := V) velocity := by
  constructor <;> intro s o f <;> cases f <;> simp [velocity, bindSpans, upd2, named]

/-- The two machines agree. -/
structure Sim (s : State V) (v : Values V) : Prop where
  rel : Rel s v.vals
  live : s.live = v.live
  dim : s.dim = v.dim
  dead : ∀ o, v.live o = false → ∀ a, v.vals o a = []
  bound : ∀ o, v.live o = true → v.usable o = true → ∀ f, s.span o f = s.vec o (named f)

theorem Rel.bindSpans {s : State V} {v : Nat → Arr → List V} (R : Rel s v) (t : List (Sp × Arr)) (o : Nat) :
    Rel (Verif.Views.bindSpans t o s) v := ⟨R.holds, R.inj, R.owned⟩

theorem Rel.fresh {s : State V} {v : Nat → Arr → List V} (R : Rel s v) (o : Nat) (d : Dim) :
    Rel (Verif.Views.fresh o d s) v := ⟨R.holds, R.inj, R.owned⟩

section
variable [Zero V] {pick : Heap V → Nat} {C : Cls}

theorem upd1_eq {γ : Type} (f : Nat → γ) (o : Nat) (c : γ) : upd1 f o c = set1 f o c := rfl

theorem step_sim (hp : ∀ h, Heap.get h (pick h) = none) (hC : Good (V := V) C) {s : State V} {v : Values V}
    (S : Sim s v) (op : Op V) {v' : Values V} {x : Option V} (h : Spec.step v op = some (v', x)) :
    ∃ s', step pick C s op = some (s', x) ∧ Sim s' v' := by
  cases op with
  | construct o d =>
    simp only [Spec.step] at h
    split at h
    · simp at h
    · rename_i hl
      simp only [Bool.not_eq_true] at hl
      simp only [Option.some.injEq, Prod.mk.injEq] at h
      obtain ⟨rfl, rfl⟩ := h
      obtain ⟨s1, e1, R1, F1⟩ := fold_rel (P := (· = o))
        (st := fun s a => put pick s o a (List.replicate d.num 0))
        (f := fun v a => upd2 v o a (List.replicate d.num 0))
        (fun s v a R => put_rel hp R o a _) (resized d) (Verif.Views.fresh o d s) v.vals (S.rel.fresh o d)
      refine ⟨bindSpans C.ctor o s1, by simp [step, construct, e1], ?_⟩
      have hv : (resized d).foldl (fun v a => upd2 v o a (List.replicate d.num 0)) v.vals =
          set1 v.vals o (fun a => List.replicate (count d a) 0) := by
        funext q b
        rw [foldl_put (resized d) o (fun _ => List.replicate d.num 0)]
        by_cases hq : q = o
        · subst hq
          simp only [set1, if_true, true_and, ← mem_resized d b, S.dead q hl b]
        · simp [set1, hq]
      rw [hv] at R1
      refine ⟨R1.bindSpans _ _, ?_, ?_, ?_, ?_⟩
      · show s1.live = _
        rw [F1.live]; show upd1 s.live o true = _; rw [S.live]; rfl
      · show s1.dim = _
        rw [F1.dim]; show upd1 s.dim o d = _; rw [S.dim]; rfl
      · intro q hq a
        simp only [set1] at hq ⊢
        by_cases hqo : q = o
        · simp [hqo] at hq
        · simp only [hqo, if_false] at hq ⊢
          exact S.dead q hq a
      · intro q hq hu f
        by_cases hqo : q = o
        · subst hqo
          exact hC.ctor s1 q f
        · simp only [set1, hqo, if_false] at hq hu
          rw [bind_other _ _ _ _ hqo, F1.span]
          show (if q = o then View.null else s.span q f) = s1.vec q (named f)
          rw [if_neg hqo, F1.vec q hqo]
          exact S.bound q hq hu f
  | copyConstruct o p =>
    simp only [Spec.step] at h
    split at h
    · rename_i hl
      simp only [Option.some.injEq, Prod.mk.injEq] at h
      obtain ⟨rfl, rfl⟩ := h
      have hop : o ≠ p := by rintro rfl; simp [hl.1] at hl
      obtain ⟨s1, e1, R1, F1⟩ := fold_rel (P := (· = o)) (st := copyVec pick o p)
        (f := fun v a => upd2 v o a (v p a))
        (fun s v a R => copyVec_rel hp R o p a) members (Verif.Views.fresh o (s.dim p) s) v.vals (S.rel.fresh o _)
      refine ⟨bindSpans C.copy o s1, by simp [step, copyConstruct, e1], ?_⟩
      have hv : members.foldl (fun v a => upd2 v o a (v p a)) v.vals = set1 v.vals o (v.vals p) := by
        funext q b
        rw [foldl_copy members hop]
        by_cases hq : q = o <;> simp [set1, hq, mem_members]
      rw [hv] at R1
      refine ⟨R1.bindSpans _ _, ?_, ?_, ?_, ?_⟩
      · show s1.live = _
        rw [F1.live]; show upd1 s.live o true = _; rw [S.live]; rfl
      · show s1.dim = _
        rw [F1.dim]; show upd1 s.dim o (s.dim p) = _; rw [S.dim]; rfl
      · intro q hq a
        simp only [set1] at hq ⊢
        by_cases hqo : q = o
        · simp [hqo] at hq
        · simp only [hqo, if_false] at hq ⊢
          exact S.dead q hq a
      · intro q hq hu f
        by_cases hqo : q = o
        · subst hqo
          exact hC.copy s1 q f
        · simp only [set1, hqo, if_false] at hq hu
          rw [bind_other _ _ _ _ hqo, F1.span]
          show (if q = o then View.null else s.span q f) = s1.vec q (named f)
          rw [if_neg hqo, F1.vec q hqo]
          exact S.bound q hq hu f
    · simp at h
  | copyAssign o p =>
    simp only [Spec.step] at h
    split at h
    · rename_i hl
      simp only [Option.some.injEq, Prod.mk.injEq] at h
      obtain ⟨rfl, rfl⟩ := h
      by_cases hop : o = p
      · subst hop
        refine ⟨s, by simp [step, copyAssign], ?_⟩
        have hv : set1 v.vals o (v.vals o) = v.vals := by
          funext q
          by_cases hq : q = o <;> simp [set1, hq]
        simp only [if_true, hv]
        exact S
      · obtain ⟨s1, e1, R1, F1⟩ := fold_rel (P := (· = o)) (st := copyVec pick o p)
          (f := fun v a => upd2 v o a (v p a))
          (fun s v a R => copyVec_rel hp R o p a) assigned s v.vals S.rel
        refine ⟨bindSpans C.bind o s1, by simp [step, copyAssign, e1, hop], ?_⟩
        have hv : assigned.foldl (fun v a => upd2 v o a (v p a)) v.vals = set1 v.vals o (v.vals p) := by
          funext q b
          rw [foldl_copy assigned hop]
          by_cases hq : q = o <;> simp [set1, hq, mem_assigned]
        rw [hv] at R1
        refine ⟨R1.bindSpans _ _, F1.live.trans S.live, F1.dim.trans S.dim, ?_, ?_⟩
        · intro q hq a
          by_cases hqo : q = o
          · rw [hqo, hl.1] at hq
            simp at hq
          · simp only [set1, hqo, if_false]
            exact S.dead q hq a
        · intro q hq hu f
          by_cases hqo : q = o
          · subst hqo
            exact hC.bind s1 q f
          · simp only [hop, set1, hqo, if_false] at hu
            rw [bind_other _ _ _ _ hqo, F1.span]
            show s.span q f = s1.vec q (named f)
            rw [F1.vec q hqo]
            exact S.bound q hq hu f
    · simp at h
  | moveConstruct o p =>
    simp only [Spec.step] at h
    split at h
    · rename_i hl
      simp only [Option.some.injEq, Prod.mk.injEq] at h
      obtain ⟨rfl, rfl⟩ := h
      have hop : o ≠ p := by rintro rfl; simp [hl.1] at hl
      obtain ⟨s1, e1, R1, F1⟩ := fold_rel (P := fun q => q = o ∨ q = p) (st := swapVec o p)
        (f := fun v a => upd2 (upd2 v o a (v p a)) p a (v o a))
        (fun s v a R => swapVec_rel R hop a) members (Verif.Views.fresh o (s.dim p) s) v.vals (S.rel.fresh o _)
      refine ⟨bindSpans C.move o s1, by simp [step, moveConstruct, e1], ?_⟩
      have hv : members.foldl (fun v a => upd2 (upd2 v o a (v p a)) p a (v o a)) v.vals =
          set1 (set1 v.vals o (v.vals p)) p (fun _ => []) := by
        funext q b
        rw [foldl_swap members (by decide) hop]
        simp only [mem_members, if_true, set1]
        by_cases hq : q = o
        · subst hq; simp [hop]
        · by_cases hq' : q = p
          · subst hq'; simp [hq, S.dead o hl.1 b]
          · simp [hq, hq']
      rw [hv] at R1
      refine ⟨R1.bindSpans _ _, ?_, ?_, ?_, ?_⟩
      · show s1.live = _
        rw [F1.live]; show upd1 s.live o true = _; rw [S.live]; rfl
      · show s1.dim = _
        rw [F1.dim]; show upd1 s.dim o (s.dim p) = _; rw [S.dim]; rfl
      · intro q hq a
        simp only [set1] at hq ⊢
        by_cases hqo : q = o
        · simp [hqo] at hq
        · by_cases hqp : q = p
          · simp [hqp]
          · simp only [hqo, hqp, if_false] at hq ⊢
            exact S.dead q hq a
      · intro q hq hu f
        by_cases hqo : q = o
        · subst hqo
          exact hC.move s1 q f
        · by_cases hqp : q = p
          · simp [set1, hqp] at hu
          · simp only [set1, hqo, hqp, if_false] at hq hu
            rw [bind_other _ _ _ _ hqo, F1.span]
            show (if q = o then View.null else s.span q f) = s1.vec q (named f)
            rw [if_neg hqo, F1.vec q (by simp [hqo, hqp])]
            exact S.bound q hq hu f
    · simp at h
  | moveAssign o p =>
    simp only [Spec.step] at h
    split at h
    · rename_i hl
      split at h
      · rename_i hop
        subst hop
        simp only [Option.some.injEq, Prod.mk.injEq] at h
        obtain ⟨rfl, rfl⟩ := h
        exact ⟨s, by simp [step, moveAssign], S⟩
      · rename_i hop
        simp only [Option.some.injEq, Prod.mk.injEq] at h
        obtain ⟨rfl, rfl⟩ := h
        obtain ⟨s1, e1, R1, F1⟩ := fold_rel (P := fun q => q = o ∨ q = p) (st := swapVec o p)
          (f := fun v a => upd2 (upd2 v o a (v p a)) p a (v o a))
          (fun s v a R => swapVec_rel R hop a) moved s v.vals S.rel
        refine ⟨bindSpans C.bind o s1, by simp [step, moveAssign, e1, hop], ?_⟩
        have hv : moved.foldl (fun v a => upd2 (upd2 v o a (v p a)) p a (v o a)) v.vals =
            set1 (set1 v.vals o (v.vals p)) p (v.vals o) := by
          funext q b
          rw [foldl_swap moved (by decide) hop]
          simp only [mem_moved, if_true, set1]
          by_cases hq : q = o
          · subst hq; simp [hop]
          · by_cases hq' : q = p
            · subst hq'; simp [hq]
            · simp [hq, hq']
        rw [hv] at R1
        refine ⟨R1.bindSpans _ _, F1.live.trans S.live, F1.dim.trans S.dim, ?_, ?_⟩
        · intro q hq a
          by_cases hqo : q = o
          · rw [hqo, hl.1] at hq
            simp at hq
          · by_cases hqp : q = p
            · rw [hqp, hl.2] at hq
              simp at hq
            · simp only [set1, hqo, hqp, if_false]
              exact S.dead q hq a
        · intro q hq hu f
          by_cases hqo : q = o
          · subst hqo
            exact hC.bind s1 q f
          · by_cases hqp : q = p
            · simp [set1, hqp] at hu
            · simp only [set1, hqo, hqp, if_false] at hu
              rw [bind_other _ _ _ _ hqo, F1.span]
              show s.span q f = s1.vec q (named f)
              rw [F1.vec q (by simp [hqo, hqp])]
              exact S.bound q hq hu f
    · simp at h
  | destroy o =>
    simp only [Spec.step] at h
    split at h
    · rename_i hl
      simp only [Option.some.injEq, Prod.mk.injEq] at h
      obtain ⟨rfl, rfl⟩ := h
      obtain ⟨s1, e1, R1, F1⟩ := fold_rel (P := (· = o)) (st := fun s a => put pick s o a [])
        (f := fun v a => upd2 v o a [])
        (fun s v a R => put_rel hp R o a _) members.reverse s v.vals S.rel
      refine ⟨{ s1 with live := upd1 s1.live o false }, by simp only [step, destroy, e1, Option.map_some], ?_⟩
      have hv : members.reverse.foldl (fun v a => upd2 v o a []) v.vals = set1 v.vals o (fun _ => []) := by
        funext q b
        rw [foldl_put members.reverse o (fun _ => [])]
        by_cases hq : q = o <;> simp [set1, hq, mem_members]
      rw [hv] at R1
      refine ⟨⟨R1.holds, R1.inj, R1.owned⟩, ?_, F1.dim.trans S.dim, ?_, ?_⟩
      · show upd1 s1.live o false = _
        rw [F1.live, S.live]; rfl
      · intro q hq a
        simp only [set1] at hq ⊢
        by_cases hqo : q = o
        · simp [hqo]
        · simp only [hqo, if_false] at hq ⊢
          exact S.dead q hq a
      · intro q hq hu f
        by_cases hqo : q = o
        · simp [set1, hqo] at hq
        · simp only [set1, hqo, if_false] at hq
          show s1.span q f = s1.vec q (named f)
          rw [F1.span, F1.vec q hqo]
          exact S.bound q hq hu f
    · simp at h
  | store o f i y =>
    simp only [Spec.step] at h
    split at h
    · rename_i hl
      obtain ⟨hl, hu, hi⟩ := hl
      simp only [Option.some.injEq, Prod.mk.injEq] at h
      obtain ⟨rfl, rfl⟩ := h
      have hb := S.bound o hl hu f
      rcases S.rel.holds o (named f) with ⟨_, h2⟩ | ⟨z, h1, h2, h3⟩
      · rw [h2] at hi; simp at hi
      · refine ⟨{ s with heap := s.heap.set z ((v.vals o (named f)).set i y) }, ?_, ?_⟩
        · simp only [step, store, hb, h1, hi, h3, if_true, Option.map_some]
        · have R1 := S.rel.write (o := o) (a := named f) (x := z) (l := (v.vals o (named f)).set i y)
            (by rw [h1]) (by simp)
          have hv : upd2 v.vals o (named f) ((v.vals o (named f)).set i y) =
              fun q a => if q = o ∧ a = named f then (v.vals o a).set i y else v.vals q a := by
            funext q a
            by_cases hk : q = o ∧ a = named f
            · obtain ⟨rfl, rfl⟩ := hk; simp [upd2]
            · simp only [upd2, hk, if_false]
          rw [hv] at R1
          refine ⟨R1, S.live, S.dim, ?_, S.bound⟩
          intro q hq a
          have : q ≠ o := by rintro rfl; rw [hl] at hq; simp at hq
          simp only [this, false_and, if_false]
          exact S.dead q hq a
    · simp at h
  | load o f i =>
    simp only [Spec.step] at h
    split at h
    · rename_i hl
      obtain ⟨hl, hu⟩ := hl
      split at h
      · simp at h
      · rename_i y hy
        simp only [Option.some.injEq, Prod.mk.injEq] at h
        obtain ⟨rfl, rfl⟩ := h
        refine ⟨s, ?_, S⟩
        have hb := S.bound o hl hu f
        obtain ⟨hi, _⟩ := List.getElem?_eq_some_iff.1 hy
        rcases S.rel.holds o (named f) with ⟨_, h2⟩ | ⟨z, h1, h2, h3⟩
        · rw [h2] at hi; simp at hi
        · simp only [step, load, hb, h1, hi, h3, if_true, hy, Option.map_some]
    · simp at h

theorem run_sim (hp : ∀ h, Heap.get h (pick h) = none) (hC : Good (V := V) C) (prog : List (Op V)) :
    ∀ {s : State V} {v : Values V}, Sim s v → ∀ {v' : Values V} {xs : List V}, Spec.run v prog = some (v', xs) →
    ∃ s', run pick C s prog = some (s', xs) ∧ Sim s' v' := by
  induction prog with
  | nil =>
    intro s v S v' xs h
    simp only [Spec.run, Option.some.injEq, Prod.mk.injEq] at h
    obtain ⟨rfl, rfl⟩ := h
    exact ⟨s, rfl, S⟩
  | cons op rest ih =>
    intro s v S v' xs h
    simp only [Spec.run] at h
    split at h
    · simp at h
    · rename_i v1 x e1
      split at h
      · simp at h
      · rename_i v2 ys e2
        simp only [Option.some.injEq, Prod.mk.injEq] at h
        obtain ⟨rfl, rfl⟩ := h
        obtain ⟨s1, h1, S1⟩ := step_sim hp hC S op e1
        obtain ⟨s2, h2, S2⟩ := ih S1 e2
        exact ⟨s2, by simp [run, h1, h2], S2⟩

omit [Zero V] in
theorem sim_init : Sim (init : State V) Spec.init := by
  refine ⟨⟨fun _ _ => Or.inl ⟨rfl, rfl⟩, ?_, ?_⟩, rfl, rfl, fun _ _ _ => rfl, ?_⟩
  · intro o a p b x h
    simp [init, View.null] at h
  · intro x l h
    simp [init, Heap.get] at h
  · intro o h
    simp [Spec.init] at h

/-- Lengths of the arrays of objects of the same sizes. -/
theorem same_sizes_step {v v' : Values V} {op : Op V} {x : Option V}
    (hS : ∀ o, v.live o = true → v.usable o = true → ∀ a, (v.vals o a).length = count (v.dim o) a)
    (h : Spec.step v op = some (v', x)) (hs : SameSizes v op) :
    ∀ o, v'.live o = true → v'.usable o = true → ∀ a, (v'.vals o a).length = count (v'.dim o) a := by
  intro q hq hu a
  cases op with
  | construct o d =>
    simp only [Spec.step] at h
    split at h
    · simp at h
    · simp only [Option.some.injEq, Prod.mk.injEq] at h
      obtain ⟨rfl, _⟩ := h
      simp only [set1] at hq hu ⊢
      by_cases e : q = o
      · simp [e]
      · simp only [e, if_false] at hq hu ⊢
        exact hS q hq hu a
  | copyConstruct o p =>
    simp only [Spec.step] at h
    split at h
    · rename_i hl
      simp only [Option.some.injEq, Prod.mk.injEq] at h
      obtain ⟨rfl, _⟩ := h
      simp only [set1] at hq hu ⊢
      by_cases e : q = o
      · simp only [e, if_true]
        exact hS p hl.2 hs a
      · simp only [e, if_false] at hq hu ⊢
        exact hS q hq hu a
    · simp at h
  | copyAssign o p =>
    simp only [Spec.step] at h
    split at h
    · rename_i hl
      simp only [Option.some.injEq, Prod.mk.injEq] at h
      obtain ⟨rfl, _⟩ := h
      simp only [set1] at hq hu ⊢
      by_cases e : q = o
      · simp only [e, if_true]
        rw [hs.1]
        exact hS p hl.2 hs.2 a
      · simp only [e, if_false] at hq hu ⊢
        refine hS q hq ?_ a
        split at hu
        · exact hu
        · simpa only [set1, e, if_false] using hu
    · simp at h
  | moveConstruct o p =>
    simp only [Spec.step] at h
    split at h
    · rename_i hl
      simp only [Option.some.injEq, Prod.mk.injEq] at h
      obtain ⟨rfl, _⟩ := h
      simp only [set1] at hq hu ⊢
      by_cases e' : q = p
      · simp [e'] at hu
      · by_cases e : q = o
        · have : o ≠ p := fun h => e' (e.trans h)
          simp only [e, if_true, this, if_false]
          exact hS p hl.2 hs a
        · simp only [e, e', if_false] at hq hu ⊢
          exact hS q hq hu a
    · simp at h
  | moveAssign o p =>
    simp only [Spec.step] at h
    split at h
    · rename_i hl
      split at h
      · simp only [Option.some.injEq, Prod.mk.injEq] at h
        obtain ⟨rfl, _⟩ := h
        exact hS q hq hu a
      · simp only [Option.some.injEq, Prod.mk.injEq] at h
        obtain ⟨rfl, _⟩ := h
        simp only [set1] at hq hu ⊢
        by_cases e' : q = p
        · simp [e'] at hu
        · by_cases e : q = o
          · have : o ≠ p := fun h => e' (e.trans h)
            simp only [e, if_true, this, if_false]
            rw [hs.1]
            exact hS p hl.2 hs.2 a
          · simp only [e, e', if_false] at hq hu ⊢
            exact hS q hq hu a
    · simp at h
  | destroy o =>
    simp only [Spec.step] at h
    split at h
    · simp only [Option.some.injEq, Prod.mk.injEq] at h
      obtain ⟨rfl, _⟩ := h
      simp only [set1] at hq hu ⊢
      by_cases e : q = o
      · simp [e] at hq
      · simp only [e, if_false] at hq ⊢
        exact hS q hq hu a
    · simp at h
  | store o f i y =>
    simp only [Spec.step] at h
    split at h
    · rename_i hl
      simp only [Option.some.injEq, Prod.mk.injEq] at h
      obtain ⟨rfl, _⟩ := h
      simp only
      split
      · rename_i e
        rw [List.length_set, e.1]
        exact hS o hl.1 hl.2.1 a
      · exact hS q hq hu a
    · simp at h
  | load o f i =>
    simp only [Spec.step] at h
    split at h
    · split at h
      · simp at h
      · simp only [Option.some.injEq, Prod.mk.injEq] at h
        obtain ⟨rfl, _⟩ := h
        exact hS q hq hu a
    · simp at h

theorem same_sizes_run (prog : List (Op V)) : ∀ {v v' : Values V} {xs : List V},
    (∀ o, v.live o = true → v.usable o = true → ∀ a, (v.vals o a).length = count (v.dim o) a) →
    AllSameSizes v prog → Spec.run v prog = some (v', xs) →
    ∀ o, v'.live o = true → v'.usable o = true → ∀ a, (v'.vals o a).length = count (v'.dim o) a := by
  induction prog with
  | nil =>
    intro v v' xs hS _ h
    simp only [Spec.run, Option.some.injEq, Prod.mk.injEq] at h
    obtain ⟨rfl, _⟩ := h
    exact hS
  | cons op rest ih =>
    intro v v' xs hS hA h
    simp only [Spec.run] at h
    split at h
    · simp at h
    · rename_i v1 x e1
      split at h
      · simp at h
      · rename_i v2 ys e2
        simp only [Option.some.injEq, Prod.mk.injEq] at h
        obtain ⟨rfl, _⟩ := h
        exact ih (same_sizes_step hS e1 hA.1) (hA.2 _ _ e1) e2
end

end Verif.Views
