import Verif.OutputIo.Model
import Verif.Indata.Hdf5Props

/-!
# Lemmas on saving and loading the outputs
-/
namespace Verif.OutputIo
open Verif Verif.Indata

/-- the names of the members -/
def names (t : List (String × Kind)) : List String := t.map Prod.fst

/-- the object has the members of the table, of these types -/
def Typed (t : List (String × Kind)) (o : Obj) : Prop := ∀ p ∈ t, (o p.1).kind = p.2

/-- values that the file can hold: text without NUL characters and no lists of strings -/
def Storable : Val → Prop
  | .str s => Char.ofNat 0 ∉ s.toList
  | .strs l => l = []
  | _ => True

/-- `out` on the names of the list, `m` elsewhere -/
def override (xs : List String) (out m : Obj) : Obj := fun x => if x ∈ xs then out x else m x

theorem override_nil (out m : Obj) : override [] out m = m := by
  funext x; simp [override]

theorem override_put (x : String) (xs : List String) (out m : Obj) : override xs out (put m x (out x)) = override (x :: xs) out m := by
  funext y
  unfold override put
  by_cases h1 : y ∈ xs
  · simp [h1]
  · by_cases h2 : y = x
    · simp [h2]
    · simp [h1, h2]

theorem override_append (xs ys : List String) (out m : Obj) : override ys out (override xs out m) = override (xs ++ ys) out m := by
  funext x
  unfold override
  by_cases h1 : x ∈ xs <;> by_cases h2 : x ∈ ys <;> simp [h1, h2]

theorem writeDataset_ok {f : File} {g x : String} {v : Val} (hv : Storable v) (hf : f.data g x = none) :
    writeDataset f g x v = .ok { f with data := fun g' x' => if g' = g ∧ x' = x then some v else f.data g' x' } := by
  have h : createDataSet f g x v = .ok { f with data := fun g' x' => if g' = g ∧ x' = x then some v else f.data g' x' } := by
    unfold createDataSet
    rw [hf]
    rfl
  cases v with
  | str s =>
    simp only [writeDataset]
    rw [cString_eq hv]
    exact h
  | strs l =>
    have : l = [] := hv
    subst this
    exact h
  | _ => exact h

theorem names_cons (x : String) (k : Kind) (t : List (String × Kind)) : names ((x, k) :: t) = x :: names t := rfl

theorem writeMembers_ok (g : String) (o : Obj) (t : List (String × Kind)) (f : File) (hn : (names t).Nodup)
    (hs : ∀ x ∈ names t, Storable (o x)) (hf : ∀ x ∈ names t, f.data g x = none) :
    writeMembers g o t f = .ok { f with data := fun g' x' => if g' = g ∧ x' ∈ names t then some (o x') else f.data g' x' } := by
  induction t generalizing f with
  | nil => simp [writeMembers, names]
  | cons p t ih =>
    obtain ⟨x, k⟩ := p
    simp only [names_cons, List.nodup_cons, List.mem_cons] at hn hs hf
    simp only [writeMembers]
    rw [writeDataset_ok (hs x (Or.inl rfl)) (hf x (Or.inl rfl)), Outcome.bind_ok, ih _ hn.2 (fun y hy => hs y (Or.inr hy))]
    · congr 1
      simp only [names_cons, List.mem_cons, File.mk.injEq, true_and]
      funext g' x'
      by_cases h1 : g' = g
      · by_cases h2 : x' = x
        · subst h2
          simp [h1, hn.1]
        · simp [h1, h2]
      · simp [h1]
    · intro y hy
      have : y ≠ x := by
        rintro rfl
        exact hn.1 hy
      simp only [this, and_false, if_false]
      exact hf y (Or.inr hy)

theorem writeTo_ok (g : String) (o : Obj) (t : List (String × Kind)) (f : File) (hn : (names t).Nodup)
    (hs : ∀ x ∈ names t, Storable (o x)) (hg : g ∉ f.groups) (hf : ∀ x ∈ names t, f.data g x = none) :
    writeTo g t o f = .ok ⟨g :: f.groups, fun g' x' => if g' = g ∧ x' ∈ names t then some (o x') else f.data g' x'⟩ := by
  unfold writeTo createGroup
  rw [if_neg hg, Outcome.bind_ok]
  exact writeMembers_ok g o t ⟨g :: f.groups, f.data⟩ hn hs hf

theorem readAs_ok {k : Kind} {v : Val} (h : v.kind = k) : readAs k (some v) = .ok v := by
  simp [readAs, h]

/-- the members that a statement sets -/
def targets : Step → List String
  | .member x _ => [x]
  | .renamed x _ _ => [x]
  | .orZeros x _ => [x]
  | .version => ["version_"]
  | .freeBoundary => ["nextcur", "extcur"]
  | .halfGrid => names halfGridMembers
  | .turned x => [x]
  | .turnedPadded x _ => [x]
  | .turnedIfThere x => [x]

/-- the members of the receiving object that a statement uses -/
def needs : Step → List String
  | .orZeros _ ref => [ref]
  | .freeBoundary => ["lfreeb"]
  | .turned _ => ["ns", "mnmax", "mnmax_nyq"]
  | .turnedPadded _ _ => ["ns", "mnmax", "mnmax_nyq"]
  | .turnedIfThere _ => ["ns", "mnmax", "mnmax_nyq"]
  | _ => []

/-- every statement finds the members it uses set by the statements before it -/
def ordered : List String → List Step → Bool
  | _, [] => true
  | done, s :: ss => (needs s).all (fun x => decide (x ∈ done)) && ordered (done ++ targets s) ss

/-- a statement sets its members to `out` if the object holds `out` where it looks -/
def Sound (stod : String → Outcome D) (f : String → Option Val) (out : Obj) (s : Step) : Prop :=
  ∀ m : Obj, (∀ x ∈ needs s, m x = out x) → exec stod f m s = .ok (override (targets s) out m)

theorem run_sound (stod : String → Outcome D) (f : String → Option Val) (out : Obj) (ss : List Step) (done : List String) (m : Obj)
    (ho : ordered done ss = true) (hs : ∀ s ∈ ss, Sound stod f out s) (hm : ∀ x ∈ done, m x = out x) :
    run stod f ss m = .ok (override (ss.flatMap targets) out m) := by
  induction ss generalizing done m with
  | nil => simp [run, override_nil]
  | cons s ss ih =>
    simp only [ordered, Bool.and_eq_true, List.all_eq_true, decide_eq_true_eq] at ho
    simp only [run]
    rw [hs s (List.mem_cons_self ..) m (fun x hx => hm x (ho.1 x hx)), Outcome.bind_ok,
      ih _ _ ho.2 (fun s' h' => hs s' (List.mem_cons_of_mem _ h')), List.flatMap_cons, override_append]
    intro x hx
    unfold override
    split_ifs with h
    · rfl
    · rcases List.mem_append.1 hx with h' | h'
      · exact hm x h'
      · exact absurd h' h

theorem readMember_sound {f : String → Option Val} {out : Obj} (m : Obj) {x : String} {k : Kind} (hf : f x = some (out x))
    (hk : (out x).kind = k) : readMember f m x k = .ok (override [x] out m) := by
  unfold readMember
  rw [hf, readAs_ok hk, Outcome.bind_ok, ← override_put, override_nil]

theorem readMembers_sound {f : String → Option Val} {out : Obj} (t : List (String × Kind)) (m : Obj)
    (hf : ∀ p ∈ t, f p.1 = some (out p.1)) (hk : ∀ p ∈ t, (out p.1).kind = p.2) :
    readMembers f t m = .ok (override (names t) out m) := by
  induction t generalizing m with
  | nil => simp [readMembers, names, override_nil]
  | cons p t ih =>
    obtain ⟨x, k⟩ := p
    simp only [readMembers]
    rw [readMember_sound m (hf (x, k) (List.mem_cons_self ..)) (hk (x, k) (List.mem_cons_self ..)), Outcome.bind_ok,
      ih _ (fun p hp => hf p (List.mem_cons_of_mem _ hp)) (fun p hp => hk p (List.mem_cons_of_mem _ hp)), override_append]
    rfl

theorem readHalfGridCompats_sound {f : String → Option Val} {out : Obj} (t : List (String × String)) (m : Obj)
    (hf : ∀ p ∈ t, ∃ l, f p.2 = some (.doubles l) ∧ out p.1 = .doubles (0 :: l)) :
    readHalfGridCompats f t m = .ok (override (t.map Prod.fst) out m) := by
  induction t generalizing m with
  | nil => simp [readHalfGridCompats, override_nil]
  | cons p t ih =>
    obtain ⟨x, old⟩ := p
    obtain ⟨l, h1, h2⟩ := hf (x, old) (List.mem_cons_self ..)
    simp only at h1 h2
    simp only [readHalfGridCompats, readHalfGridCompat]
    rw [h1, readAs_ok (by rfl : (Val.doubles l).kind = .doubles), Outcome.bind_ok]
    simp only [Outcome.bind_ok]
    rw [← h2, ih _ (fun p hp => hf p (List.mem_cons_of_mem _ hp)), override_put]
    rfl

theorem readTurned_ok {f : String → Option Val} {m : Obj} {x : String} {a : Mat D} {ns mnmax nyq : Int} (hf : f x = some (.matrix a))
    (h1 : m "ns" = .int ns) (h2 : m "mnmax" = .int mnmax) (h3 : m "mnmax_nyq" = .int nyq) :
    readTurned f m x = .ok (put m x (.matrix (if a.rows = ns ∧ (a.cols = mnmax ∨ a.cols = nyq) then transpose a else a))) := by
  unfold readTurned
  rw [hf, readAs_ok (by rfl : (Val.matrix a).kind = .matrix), Outcome.bind_ok]
  simp only [matrixOf, intOf, h1, h2, h3, Outcome.bind_ok]
  split_ifs <;> rfl

theorem readTurnedPadded_ok {f : String → Option Val} {m : Obj} {x size : String} {a : Mat D} {ns mn : Int} (hf : f x = some (.matrix a))
    (h1 : m "ns" = .int ns) (h2 : m size = .int mn) :
    readTurnedPadded f m x size = .ok (put m x (.matrix
      (if a.rows = ns - 1 ∧ a.cols = mn then padLeft a ns mn else if a.rows = ns ∧ a.cols = mn then transpose a else a))) := by
  unfold readTurnedPadded
  simp only [matrixOf, intOf, h1, h2, Outcome.bind_ok]
  rw [hf, readAs_ok (by rfl : (Val.matrix a).kind = .matrix), Outcome.bind_ok]
  simp only [matrixOf, Outcome.bind_ok]
  split_ifs <;> rfl

theorem put_eq_override (m out : Obj) (x : String) (v : Val) (h : v = out x) : put m x v = override [x] out m := by
  rw [h, ← override_put, override_nil]

end Verif.OutputIo
