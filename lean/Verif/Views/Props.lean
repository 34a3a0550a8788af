import Verif.Views.Lemmas
/-!
# C120: copies of the Fourier containers are independent and their spans show their own arrays

The claim: for every program that constructs, copies, assigns, moves, destroys, reads and writes objects of one of the
three classes, in any order, access through the spans is access to the twelve lists of the object itself, and no memory
is leaked, freed twice or used after it is freed.

Two things do not hold.  An object that was moved from keeps its old spans, which now show the arrays of the object
it was moved to (F128).  Assignment between objects of different sizes changes the arrays, but not the sizes the
loops run over (F129).  The program uses neither: `vmec.cc:1251,1280,1300` and `pybind_vmec.cc:293,297` assign between
`decomposed_x_[t]` and `physical_x_backup_[t]`, which are constructed with the same arguments (`vmec.cc:663-674`).
-/

namespace Verif.Views
open Verif.Views.Spec

variable {V : Type} [Zero V]

/-- The three classes. -/
def IsClass (C : Cls) : Prop := C = geometry ∨ C = forces ∨ C = velocity

omit [Zero V] in
theorem IsClass.good {C : Cls} (h : IsClass C) : Good (V := V) C := by
  rcases h with rfl | rfl | rfl
  · exact good_geometry
  · exact good_forces
  · exact good_velocity

/-- An allocator never hands out an address in use; it may hand out a freed one. -/
def Allocator (pick : Heap V → Nat) : Prop := ∀ h, Heap.get h (pick h) = none

/-- **C120 (values).** Every program that is allowed for values runs on the heap without undefined behaviour and
reads the same numbers. -/
theorem C120_objects_behave_as_values {pick : Heap V → Nat} (hp : Allocator pick) {C : Cls} (hC : IsClass C)
    (prog : List (Op V)) {v : Values V} {xs : List V} (h : Spec.run Spec.init prog = some (v, xs)) :
    ∃ s, run pick C init prog = some (s, xs) := by
  obtain ⟨s, hs, _⟩ := run_sim hp hC.good prog sim_init h
  exact ⟨s, hs⟩

/-- **C120 (spans).** After every such program each span of each object that was not moved from has the length of the
object's own array of that name, and its elements. -/
theorem C120_spans_show_own_arrays {pick : Heap V → Nat} (hp : Allocator pick) {C : Cls} (hC : IsClass C)
    (prog : List (Op V)) {v : Values V} {xs : List V} (h : Spec.run Spec.init prog = some (v, xs)) :
    ∃ s, run pick C init prog = some (s, xs) ∧ ∀ o, v.live o = true → v.usable o = true → ∀ f,
      (s.span o f).size = (v.vals o (named f)).length ∧ ∀ i, load o f i s = (v.vals o (named f))[i]? := by
  obtain ⟨s, hs, S⟩ := run_sim hp hC.good prog sim_init h
  refine ⟨s, hs, fun o hl hu f => ?_⟩
  have hb := S.bound o hl hu f
  have hh := S.rel.holds o (named f)
  refine ⟨by rw [hb, hh.size], fun i => ?_⟩
  rcases hh with ⟨h1, h2⟩ | ⟨z, h1, h2, h3⟩
  · simp [load, hb, h1, h2, View.null]
  · by_cases hi : i < (v.vals o (named f)).length
    · simp [load, hb, h1, h3, hi]
    · simp [load, hb, h1, hi]

/-- **C120 (memory).** When all objects are destroyed, nothing is allocated any more; before that each block
belongs to exactly one array of one object. -/
theorem C120_no_leak {pick : Heap V → Nat} (hp : Allocator pick) {C : Cls} (hC : IsClass C)
    (prog : List (Op V)) {v : Values V} {xs : List V} (h : Spec.run Spec.init prog = some (v, xs)) :
    ∃ s, run pick C init prog = some (s, xs) ∧
      (∀ x l, s.heap.get x = some l → ∃ k : Nat × Arr, v.live k.1 = true ∧ l = v.vals k.1 k.2 ∧
        ∀ o a, (s.vec o a).data = some x ↔ (o, a) = k) ∧
      ((∀ o, v.live o = false) → s.heap = []) := by
  obtain ⟨s, hs, S⟩ := run_sim hp hC.good prog sim_init h
  have key : ∀ x l, s.heap.get x = some l → ∃ k : Nat × Arr, v.live k.1 = true ∧ l = v.vals k.1 k.2 ∧
      ∀ o a, (s.vec o a).data = some x ↔ (o, a) = k := by
    intro x l hx
    obtain ⟨o, a, ho⟩ := S.rel.owned x l hx
    obtain ⟨_, h2, h3⟩ := (S.rel.holds o a).of_data ho
    refine ⟨(o, a), ?_, ?_, ?_⟩
    · cases hl : v.live o with
      | true => rfl
      | false => exact absurd (S.dead o hl a) h2
    · rw [hx] at h3
      exact Option.some.inj h3
    · intro p b
      constructor
      · intro hpb
        obtain ⟨e1, e2⟩ := S.rel.inj p b o a x hpb ho
        rw [e1, e2]
      · intro e
        simp only [Prod.mk.injEq] at e
        rw [e.1, e.2]
        exact ho
  refine ⟨s, hs, key, fun hd => ?_⟩
  cases hh : s.heap with
  | nil => rfl
  | cons y t =>
    have : s.heap.get y.1 = some y.2 := by
      obtain ⟨y1, y2⟩ := y
      simp [hh, Heap.get]
    obtain ⟨k, hk, _⟩ := key _ _ this
    rw [hd] at hk
    simp at hk

/-- **C120 (sizes).** As long as assignments are between objects of the same sizes (and nothing is taken from an object
that was moved from), each span has the length the loops of the object run over. -/
theorem C120_spans_fit_the_loops {pick : Heap V → Nat} (hp : Allocator pick) {C : Cls} (hC : IsClass C)
    (prog : List (Op V)) (hA : AllSameSizes Spec.init prog) {v : Values V} {xs : List V}
    (h : Spec.run Spec.init prog = some (v, xs)) :
    ∃ s, run pick C init prog = some (s, xs) ∧ ∀ o, v.live o = true → v.usable o = true →
      s.dim o = v.dim o ∧ ∀ f, (s.span o f).size = count (s.dim o) (named f) := by
  obtain ⟨s, hs, S⟩ := run_sim hp hC.good prog sim_init h
  refine ⟨s, hs, fun o hl hu => ⟨by rw [S.dim], fun f => ?_⟩⟩
  rw [S.bound o hl hu f, (S.rel.holds o (named f)).size, S.dim]
  exact same_sizes_run prog (by intro q hq; simp [Spec.init] at hq) hA h o hl hu (named f)

theorem run_append (p q : List (Op V)) : ∀ {v v' : Values V} {xs : List V},
    Spec.run v (p ++ q) = some (v', xs) → ∃ v1 ys zs, Spec.run v p = some (v1, ys) ∧
      Spec.run v1 q = some (v', zs) ∧ xs = ys ++ zs := by
  induction p with
  | nil => exact fun {v v' xs} h => ⟨v, [], xs, rfl, h, rfl⟩
  | cons op rest ih =>
    intro v v' xs h
    rw [List.cons_append] at h
    simp only [Spec.run] at h
    split at h
    · simp at h
    · rename_i v1 x e1
      split at h
      · simp at h
      · rename_i v2 ys e2
        simp only [Option.some.injEq, Prod.mk.injEq] at h
        obtain ⟨rfl, rfl⟩ := h
        obtain ⟨v3, as, bs, h1, h2, rfl⟩ := ih e2
        exact ⟨v3, x.toList ++ as, bs, by simp [Spec.run, e1, h1], h2, by simp⟩

/-- What happens between saving and restoring: writes to the state and reads of anything. -/
def Touches (x : Nat) : Op V → Prop
  | .store o _ _ _ => o = x
  | .load _ _ _ => True
  | _ => False

theorem touches_run {x : Nat} (w : List (Op V)) : ∀ {v v' : Values V} {xs : List V}, (∀ op ∈ w, Touches x op) →
    Spec.run v w = some (v', xs) → (∀ q, q ≠ x → v'.vals q = v.vals q) ∧ v'.live = v.live ∧ v'.usable = v.usable := by
  induction w with
  | nil =>
    intro v v' xs _ h
    simp only [Spec.run, Option.some.injEq, Prod.mk.injEq] at h
    obtain ⟨rfl, _⟩ := h
    exact ⟨fun _ _ => rfl, rfl, rfl⟩
  | cons op rest ih =>
    intro v v' xs hw h
    simp only [Spec.run] at h
    split at h
    · simp at h
    · rename_i v1 y e1
      split at h
      · simp at h
      · rename_i v2 ys e2
        simp only [Option.some.injEq, Prod.mk.injEq] at h
        obtain ⟨rfl, _⟩ := h
        obtain ⟨h1, h2, h3⟩ := ih (fun o ho => hw o (List.mem_cons_of_mem _ ho)) e2
        have hop := hw op List.mem_cons_self
        have : (∀ q, q ≠ x → v1.vals q = v.vals q) ∧ v1.live = v.live ∧ v1.usable = v.usable := by
          cases op <;> simp only [Touches] at hop
          · subst hop
            simp only [Spec.step] at e1
            split at e1
            · simp only [Option.some.injEq, Prod.mk.injEq] at e1
              obtain ⟨rfl, _⟩ := e1
              exact ⟨fun q hq => by funext a; simp [hq], rfl, rfl⟩
            · simp at e1
          · simp only [Spec.step] at e1
            split at e1
            · split at e1
              · simp at e1
              · simp only [Option.some.injEq, Prod.mk.injEq] at e1
                obtain ⟨rfl, _⟩ := e1
                exact ⟨fun _ _ => rfl, rfl, rfl⟩
            · simp at e1
        exact ⟨fun q hq => (h1 q hq).trans (this.1 q hq), h2.trans this.2.1, h3.trans this.2.2⟩

/-- **C120 (backup).** `*backup = *x`, any writes to `x`, `*x = *backup` (`vmec.cc:1300` and `:1251`, `:1280`):
every element read through the spans of `x` is what it was before. -/
theorem C120_restore_returns_the_saved_state {pick : Heap V → Nat} (hp : Allocator pick) {C : Cls} (hC : IsClass C)
    (prog w : List (Op V)) {x b : Nat} (hxb : x ≠ b) (hw : ∀ op ∈ w, Touches x op)
    {v1 v2 : Values V} {xs1 xs2 : List V} (h1 : Spec.run Spec.init prog = some (v1, xs1))
    (hu : v1.usable x = true)
    (h2 : Spec.run Spec.init (prog ++ (.copyAssign b x :: (w ++ [.copyAssign x b]))) = some (v2, xs2)) :
    ∃ s1 s2, run pick C init prog = some (s1, xs1) ∧
      run pick C init (prog ++ (.copyAssign b x :: (w ++ [.copyAssign x b]))) = some (s2, xs2) ∧
      ∀ f i, load x f i s2 = load x f i s1 := by
  obtain ⟨s1, e1, K1⟩ := C120_spans_show_own_arrays hp hC prog h1
  obtain ⟨s2, e2, K2⟩ := C120_spans_show_own_arrays hp hC _ h2
  refine ⟨s1, s2, e1, e2, ?_⟩
  obtain ⟨v3, ys, zs, r1, r2, _⟩ := run_append _ _ h2
  rw [h1] at r1
  simp only [Option.some.injEq, Prod.mk.injEq] at r1
  obtain ⟨rfl, _⟩ := r1
  simp only [Spec.run] at r2
  split at r2
  · simp at r2
  · rename_i v4 y e4
    split at r2
    · simp at r2
    · rename_i v5 us e5
      simp only [Option.some.injEq, Prod.mk.injEq] at r2
      obtain ⟨rfl, _⟩ := r2
      obtain ⟨v6, as, bs, q1, q2, _⟩ := run_append _ _ e5
      obtain ⟨t1, t2, t3⟩ := touches_run w hw q1
      simp only [Spec.step] at e4
      split at e4
      · rename_i hl
        simp only [Option.some.injEq, Prod.mk.injEq] at e4
        obtain ⟨rfl, _⟩ := e4
        simp only [Spec.run, Spec.step] at q2
        split at q2
        · simp at q2
        · rename_i v7 z e7
          simp only [List.append_nil, Option.some.injEq, Prod.mk.injEq] at q2
          obtain ⟨rfl, _⟩ := q2
          split at e7
          · rename_i hl'
            simp only [Option.some.injEq, Prod.mk.injEq] at e7
            obtain ⟨rfl, _⟩ := e7
            have hv : set1 v6.vals x (v6.vals b) x = v1.vals x := by
              simp only [set1, if_true]
              rw [t1 b (Ne.symm hxb)]
              simp [set1]
            intro f i
            rw [(K1 x hl.2 hu f).2 i, (K2 x hl'.1 (by simp [set1]) f).2 i]
            show (set1 v6.vals x (v6.vals b) x (named f))[i]? = _
            rw [hv]
          · simp at e7
      · simp at e4

/-! ### Cases -/

/-- One above the highest address in use. -/
def pickMax (h : Heap V) : Nat := (h.map (·.1)).foldr max 0 + 1

omit [Zero V] in
theorem allocator_pickMax : Allocator (V := V) pickMax := by
  have key : ∀ (h : Heap V) (a : Nat), (h.map (·.1)).foldr max 0 < a → Heap.get h a = none := by
    intro h
    induction h with
    | nil => intro a _; rfl
    | cons x t ih =>
      intro a ha
      obtain ⟨y, l⟩ := x
      simp only [List.map_cons, List.foldr_cons] at ha
      have h1 : (a == y) = false := by simp; omega
      have h2 := ih a (by omega)
      simp only [Heap.get, List.lookup, h1] at h2 ⊢
      exact h2
  exact fun h => key h _ (Nat.lt_succ_self _)

/-- Two objects of the same sizes, written, saved, changed, restored and read; then both destroyed. -/
def demo : List (Op Int) :=
  [.construct 0 ⟨3, true, false⟩, .construct 1 ⟨3, true, false⟩, .store 0 .Rss 2 7, .store 0 .Lsc 0 5,
   .copyAssign 1 0, .store 0 .Rss 2 8, .load 0 .Rss 2, .load 1 .Rss 2, .copyAssign 0 1, .load 0 .Rss 2, .load 0 .Lsc 0]

/-- Non-vacuity: the program is allowed, its assignments are between equal sizes, and it reads these numbers. -/
example : (Spec.run Spec.init demo).map (·.2) = some [8, 7, 7, 5] := by decide

theorem allSame_cons {v v' : Values V} {op : Op V} {rest : List (Op V)} {x : Option V} (h : SameSizes v op)
    (e : Spec.step v op = some (v', x)) (hr : AllSameSizes v' rest) : AllSameSizes v (op :: rest) := by
  refine ⟨h, fun v'' y e' => ?_⟩
  rw [e] at e'
  cases e'
  exact hr

example : AllSameSizes Spec.init demo := by
  refine allSame_cons trivial rfl (allSame_cons trivial rfl (allSame_cons trivial rfl (allSame_cons trivial rfl
    (allSame_cons ⟨rfl, rfl⟩ rfl (allSame_cons trivial rfl (allSame_cons trivial rfl (allSame_cons trivial rfl
      (allSame_cons ⟨rfl, rfl⟩ rfl (allSame_cons trivial rfl (allSame_cons trivial rfl trivial))))))))))

example : (run pickMax geometry init demo).map (·.2) = some [8, 7, 7, 5] := by decide

example : (Spec.run Spec.init (demo ++ [.destroy 1, .destroy 0])).map (·.2) = some [8, 7, 7, 5] ∧
    (run pickMax velocity init (demo ++ [.destroy 1, .destroy 0])).map (fun r => (r.1.heap, r.2)) =
      some ([], [8, 7, 7, 5]) := by decide

/-- Non-vacuity of the program for the backup: allowed, the object is usable, and only it is written in between. -/
example : ∃ v1 v2 : Values Int, ∃ xs, Spec.run Spec.init (demo.take 4) = some (v1, []) ∧ v1.usable 0 = true ∧
    Spec.run Spec.init (demo.take 4 ++ (.copyAssign 1 0 :: ([.store 0 .Rss 2 8] ++ [.copyAssign 0 1]))) =
      some (v2, xs) ∧ ∀ op ∈ [(Op.store 0 .Rss 2 8 : Op Int)], Touches 0 op :=
  ⟨_, _, _, rfl, rfl, rfl, by simp [Touches]⟩

/-- Moves and copies in one program. -/
example : (Spec.run (V := Int) Spec.init
    [.construct 0 ⟨2, false, true⟩, .store 0 .Zcc 1 4, .moveConstruct 1 0, .load 1 .Zcc 1, .copyConstruct 2 1,
     .store 1 .Zcc 1 5, .load 2 .Zcc 1, .copyAssign 0 2, .load 0 .Zcc 1, .moveAssign 2 1, .load 2 .Zcc 1]).map (·.2) =
      some [4, 4, 4, 5] := by decide

/-- **F128.** After a move the spans of the object moved from show the arrays of the new object: writing through
them changes the new object. -/
theorem C120_moved_from_spans_alias :
    (run (V := Int) pickMax geometry init
      [.construct 0 ⟨1, false, false⟩, .moveConstruct 1 0, .store 0 .Rcc 0 9, .load 1 .Rcc 0]).map (·.2) =
      some [9] ∧
    (run (V := Int) pickMax geometry init
      [.construct 0 ⟨1, false, false⟩, .moveConstruct 1 0, .destroy 1, .load 0 .Rcc 0]).isNone = true := by decide

/-- **F129.** After assignment from a smaller object the loops of the object still run over its own sizes: the second of
its two coefficients is out of range. -/
theorem C120_assignment_keeps_the_sizes :
    let prog : List (Op Int) := [.construct 0 ⟨2, false, false⟩, .construct 1 ⟨1, false, false⟩, .copyAssign 0 1]
    (run pickMax geometry init prog).map (fun r => ((r.1.dim 0).num, (r.1.span 0 .Rcc).size)) = some (2, 1) ∧
    (run pickMax geometry init (prog ++ [.load 0 .Rcc 1])).isNone = true := by decide

end Verif.Views
