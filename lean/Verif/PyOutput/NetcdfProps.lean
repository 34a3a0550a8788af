import Verif.PyOutput.Netcdf
import Mathlib.Tactic

/-!
# C97: a `wout` file that is saved and loaded again
-/
namespace Verif.PyOutput
open Verif

/-! ## specification -/

/-- two arrays have the same type, shape and elements -/
def Arr.Same {F : Type} (a b : Arr F) : Prop := a.isInt = b.isInt ∧ a.shape = b.shape ∧ ∀ i, List.Forall₂ (· < ·) i a.shape → a.get i = b.get i
/-- two values are the same -/
def PVal.Same {F : Type} : PVal F → PVal F → Prop
  | .arr a, .arr b => a.Same b
  | a, b => a = b
/-- the field is written to the file -/
def Field.present {F : Type} (c : Field F) : Bool := match c.val with | .none => false | _ => true

/-- no white space and no zero byte at the ends -/
def Trimmed (s : List ℕ) : Prop := ∀ x, (s.head? = some x ∨ s.getLast? = some x) → isSpace x = false ∧ x ≠ 0

/-- every dimension of the array has the size that belongs to its name, and none is empty -/
def DimsOk (size : String → ℕ) (annot : Option (List String)) (shape : List ℕ) : Prop :=
  (shape.length = 1 ∨ shape.length = 2) ∧ ∃ names, names.length = shape.length ∧ (match annot with | none => names = shape.map dimDefault | some t => names = t.map dimName) ∧
    List.Forall₂ (fun n s => size n = s ∧ 0 < s) names shape

variable {D : Dbl}

/-- the elements are doubles -/
def Floats (a : Arr D.F) : Prop := a.isInt = false ∧ ∀ i, List.Forall₂ (· < ·) i a.shape → ∃ x, a.get i = .f x
/-- the elements are integers between `-b` and `b` -/
def Ints (b : Int) (a : Arr D.F) : Prop := a.isInt = true ∧ ∀ i, List.Forall₂ (· < ·) i a.shape → ∃ n, a.get i = .i n ∧ -b ≤ n ∧ n < b

/-- the field has a value of its type that the format can hold -/
def Fits (size : String → ℕ) (c : Field D.F) : Prop :=
  match c.kind, c.val with
  | .bool, .bool _ => True
  | .int, .int n => -2 ^ 31 ≤ n ∧ n < 2 ^ 31
  | .float, .float _ => True
  | .str, .str s => (∀ x ∈ s, x < 128) ∧ Trimmed s ∧ s.length ≤ c.maxLen.getD s.length ∧ 0 < c.maxLen.getD s.length ∧ size (dimDefault (c.maxLen.getD s.length)) = c.maxLen.getD s.length
  | .arr, .arr a => Floats a ∧ DimsOk size c.annot a.shape
  | .optArr, .arr a => Floats a ∧ DimsOk size c.annot a.shape
  | .optArr, .none => True
  | .intAsFloat, .arr a => Ints (2 ^ 53) a ∧ DimsOk size c.annot a.shape
  | .intArr, .arr a => Ints (2 ^ 31) a ∧ DimsOk size c.annot a.shape
  | .aux _, .arr a => Floats a ∧ DimsOk size c.annot a.shape ∧ ∃ n, a.shape = [n] ∧ 101 ≤ n
  | .extcur, .arr a => Floats a ∧ (a.shape = [0] ∨ DimsOk size c.annot a.shape)
  | _, _ => False

/-! ## strings -/

theorem dropWhile_none {α : Type} (p : α → Bool) (l : List α) (h : ∀ x, l.head? = some x → p x = false) : l.dropWhile p = l := by
  cases l with
  | nil => rfl
  | cons a l => rw [List.dropWhile_cons_of_neg (by rw [h a rfl]; decide)]

theorem strip_same (p : ℕ → Bool) (l : List ℕ) (h : ∀ x, (l.head? = some x ∨ l.getLast? = some x) → p x = false) : stripBy p l = l := by
  unfold stripBy
  rw [dropWhile_none p l fun x hx => h x (Or.inl hx), dropWhile_none p l.reverse (fun x hx => h x (Or.inr (by rwa [List.head?_reverse] at hx))), List.reverse_reverse]

theorem strip_pad (s : List ℕ) (k : ℕ) (h : ∀ x, (s.head? = some x ∨ s.getLast? = some x) → isSpace x = false) : stripBy isSpace (s ++ List.replicate k 32) = s := by
  have hr : ∀ (k : ℕ) (t : List ℕ), (List.replicate k 32 ++ t).dropWhile isSpace = t.dropWhile isSpace := by
    intro k t
    induction k with
    | zero => rfl
    | succ k ih => rw [List.replicate_succ, List.cons_append, List.dropWhile_cons_of_pos (by decide), ih]
  unfold stripBy
  cases s with
  | nil => have := hr k []; simp only [List.append_nil] at this; simp [this]
  | cons a s =>
    rw [dropWhile_none isSpace (a :: s ++ _) (fun x hx => h x (Or.inl (by simpa using hx))), List.reverse_append, List.reverse_replicate, hr,
      dropWhile_none isSpace _ (fun x hx => h x (Or.inr (by rwa [List.head?_reverse] at hx))), List.reverse_reverse]

theorem load_str (f : NcFile D.F) (dim : String) (s : List ℕ) (k : ℕ) (ha : ∀ x ∈ s, x < 128) (ht : Trimmed s) : loadVar D f (.chars dim (s ++ List.replicate k 32)) = .str s := by
  have hall : (s ++ List.replicate k 32).all (· < 128) = true := by
    rw [List.all_eq_true]
    intro x hx
    rcases List.mem_append.1 hx with h | h
    · simpa using ha x h
    · rw [(List.mem_replicate.1 h).2]; decide
  show (if (s ++ List.replicate k 32).all (· < 128) then PVal.str (stripBy isSpace (stripBy (· = 0) (s ++ List.replicate k 32))) else .str []) = _
  rw [if_pos hall, strip_same (fun x => decide (x = 0)), strip_pad s k fun x hx => (ht x hx).1]
  rintro x (hx | hx)
  · cases s with
    | nil =>
      have : x = 32 := by
        cases k with
        | zero => simp at hx
        | succ k => simpa [List.replicate_succ] using hx.symm
      rw [this]; rfl
    | cons a s => simpa using (ht x (Or.inl (by simpa using hx))).2
  · cases k with
    | zero => simp only [List.replicate_zero, List.append_nil] at hx; simpa using (ht x (Or.inr hx)).2
    | succ k =>
      have : x = 32 := by rw [List.replicate_succ', ← List.append_assoc, List.getLast?_append] at hx; simpa using hx.symm
      rw [this]; rfl

/-! ## dimensions -/

/-- the dimensions of the file have the sizes that belong to their names, and none is unlimited -/
structure DimInv (size : String → ℕ) (f : NcFile D.F) : Prop where
  unlim : f.unlim = none
  sub : ∀ n s, f.dims n = some s → s = size n

theorem ensure_ok {size : String → ℕ} {f : NcFile D.F} (h : DimInv size f) {n : String} {s : ℕ} (hs : size n = s) (h0 : 0 < s) :
    ∃ f', f.ensure D n s = .ok f' ∧ DimInv size f' ∧ f'.vars = f.vars ∧ f'.dims n = some s ∧ ∀ m t, f.dims m = some t → f'.dims m = some t := by
  unfold NcFile.ensure
  cases hd : f.dims n with
  | some t =>
    refine ⟨f, rfl, h, rfl, ?_, fun _ _ x => x⟩
    rw [hd, h.sub n t hd, hs]
  | none =>
    simp only
    unfold NcFile.createDimension
    rw [if_neg (by omega)]
    refine ⟨_, rfl, ⟨h.unlim, fun m t hm => ?_⟩, rfl, by simp, fun m t hm => ?_⟩
    · simp only at hm
      split_ifs at hm with e
      · rw [e, hs]; exact (Option.some.inj hm).symm
      · exact h.sub m t hm
    · simp only
      rw [if_neg (by rintro rfl; rw [hd] at hm; cases hm), hm]

theorem ensureAll_ok {size : String → ℕ} {f : NcFile D.F} (h : DimInv size f) {names : List String} {shape : List ℕ} (hs : List.Forall₂ (fun n s => size n = s ∧ 0 < s) names shape) :
    ∃ f', f.ensureAll D (names.zip shape) = .ok f' ∧ DimInv size f' ∧ f'.vars = f.vars ∧ (∀ n ∈ names, f'.dims n = some (size n)) ∧ ∀ m t, f.dims m = some t → f'.dims m = some t := by
  induction hs generalizing f with
  | nil => exact ⟨f, rfl, h, rfl, by simp, fun _ _ x => x⟩
  | @cons n s ns ss hd tl ih =>
    obtain ⟨f1, e1, i1, v1, d1, m1⟩ := ensure_ok h hd.1 hd.2
    obtain ⟨f2, e2, i2, v2, d2, m2⟩ := ih i1
    refine ⟨f2, ?_, i2, v2.trans v1, fun x hx => ?_, fun a b x => m2 a b (m1 a b x)⟩
    · show (f.ensure D n s).bind _ = _
      rw [e1]; exact e2
    · rcases List.mem_cons.1 hx with rfl | hx
      · rw [m2 _ _ d1, hd.1]
      · exact d2 x hx

/-! ## one field -/

/-- names of the dimensions of a variable -/
def Var.dims {F : Type} : Var F → List String
  | .chars _ _ => []
  | .nums d _ _ => d

/-- the variable is read back as the value of the field, from every file in which its dimensions have the right sizes -/
def Holds (size : String → ℕ) (c : Field D.F) (v : String × Var D.F) : Prop :=
  v.1 = c.name ∧ ∀ f : NcFile D.F, (∀ d ∈ v.2.dims, f.dims d = some (size d)) → ∃ u, validate D c.kind (loadVar D f v.2) = some u ∧ u.Same c.val

/-- the file holds the fields -/
structure FileInv (size : String → ℕ) (w : List (Field D.F)) (f : NcFile D.F) : Prop where
  dim : DimInv size f
  holds : List.Forall₂ (Holds size) (w.filter Field.present) f.vars
  known : ∀ v ∈ f.vars, ∀ d ∈ v.2.dims, f.dims d = some (size d)

theorem create_ok {size : String → ℕ} {w : List (Field D.F)} {f : NcFile D.F} (h : FileInv size w f) {c : Field D.F} (hn : c.name ∉ w.map Field.name) {v : Var D.F} (hp : c.present = true)
    (hv : Holds size c (c.name, v)) (hd : ∀ d ∈ v.dims, f.dims d = some (size d)) : ∃ f', f.create D c.name v = .ok f' ∧ FileInv size (w ++ [c]) f' ∧ f'.dims = f.dims ∧ f'.unlim = f.unlim := by
  have hno : f.vars.any (·.1 = c.name) = false := by
    rw [List.any_eq_false]
    intro x hx hc
    obtain ⟨i, hi, rfl⟩ := List.getElem_of_mem hx
    have hl := h.holds.length_eq
    have := (List.forall₂_iff_get.1 h.holds).2 i (by omega) hi
    have e : f.vars[i].1 = ((w.filter Field.present)[i]'(by omega)).name := this.1
    refine hn (List.mem_map.2 ⟨_, (List.mem_filter.1 (List.getElem_mem (by omega : i < (w.filter Field.present).length))).1, ?_⟩)
    rw [← e]; simpa using hc
  unfold NcFile.create
  rw [hno]
  refine ⟨_, rfl, ⟨⟨h.dim.unlim, h.dim.sub⟩, ?_, ?_⟩, rfl, rfl⟩
  · rw [List.filter_append, List.filter_cons_of_pos hp, List.filter_nil]
    exact List.rel_append h.holds (.cons hv .nil)
  · intro x hx
    rcases List.mem_append.1 hx with hx | hx
    · exact h.known x hx
    · rw [List.mem_singleton.1 hx]; exact hd

theorem inv_dims {size : String → ℕ} {w : List (Field D.F)} {f f' : NcFile D.F} (h : FileInv size w f) (hd : DimInv size f') (hv : f'.vars = f.vars)
    (hm : ∀ m t, f.dims m = some t → f'.dims m = some t) : FileInv size w f' :=
  ⟨hd, hv ▸ h.holds, fun v hx d hdv => hm _ _ (h.known v (hv ▸ hx) d hdv)⟩

theorem wrap32_id {n : Int} (h0 : -2 ^ 31 ≤ n) (h1 : n < 2 ^ 31) : wrap32 n = n := by
  unfold wrap32
  rw [Int.emod_eq_of_lt (by omega) (by omega)]; omega

/-- an array is written so that it is read back, up to the conversion of its elements -/
theorem array_ok {size : String → ℕ} {w : List (Field D.F)} {f : NcFile D.F} (h : FileInv size w f) {c : Field D.F} (hn : c.name ∉ w.map Field.name) (hp : c.present = true) {a : Arr D.F}
    (hdump : dump D c.kind c.val = .arr a) (hdims : DimsOk size c.annot a.shape)
    (hst : ∀ i, List.Forall₂ (· < ·) i a.shape → stored D (a.get i) = a.get i)
    (hval : ∀ b : Arr D.F, b.Same a → ∃ u, validate D c.kind (.arr b) = some u ∧ u.Same c.val) : ∃ f', saveField D c f = .ok f' ∧ FileInv size (w ++ [c]) f' := by
  obtain ⟨hlen, names, hl, hnames, hall⟩ := hdims
  have hss : shapeString c.annot a.shape = .ok names := by
    unfold shapeString
    cases hann : c.annot with
    | none => rw [hann] at hnames; simp only at hnames ⊢; rw [hnames]
    | some t =>
      rw [hann] at hnames
      simp only at hnames ⊢
      rw [if_pos (by rw [← hl, hnames, List.length_map]), hnames]
  obtain ⟨f1, e1, i1, v1, d1, m1⟩ := ensureAll_ok h.dim hall
  have h1 := inv_dims h i1 v1 m1
  unfold saveField
  rw [hdump]
  simp only [hss, Outcome.bind, e1]
  rcases hlen with hlen | hlen
  · obtain ⟨n, hshape⟩ := List.length_eq_one_iff.1 hlen
    obtain ⟨d, rfl⟩ := List.length_eq_one_iff.1 (hl.trans hlen)
    rw [hshape] at hall hst ⊢
    have hsz : size d = n := by cases hall with | cons hd _ => exact hd.1
    simp only
    have hdd := d1 d (by simp)
    have hH : Holds size c (c.name, .nums [d] a.isInt (cells1 D a n)) := by
      refine ⟨rfl, fun g hg => hval _ ⟨rfl, ?_, fun i hi => ?_⟩⟩
      · have := hg d (by simp [Var.dims])
        simp only [List.map_cons, List.map_nil, this, Option.getD_some, hsz, hshape]
      · have := hg d (by simp [Var.dims])
        simp only [List.map_cons, List.map_nil, this, Option.getD_some, hsz] at hi
        cases hi with
        | @cons k _ ks _ hk hks =>
          cases hks
          show cells1 D a n [k] = _
          simp only [cells1]
          rw [if_pos hk]
          exact hst [k] (.cons hk .nil)
    obtain ⟨f2, e2, i2, k2, u2⟩ := create_ok h1 hn hp hH (by intro x hx; rw [List.mem_singleton.1 hx]; exact hdd)
    rw [e2]
    simp only
    rw [if_neg (by rw [u2, i1.unlim]; simp), if_pos (by rw [k2, hdd, hsz]; simp)]
    exact ⟨f2, rfl, i2⟩
  · obtain ⟨n, m, hshape⟩ := List.length_eq_two.1 hlen
    obtain ⟨d, e, rfl⟩ := List.length_eq_two.1 (hl.trans hlen)
    rw [hshape] at hall hst ⊢
    obtain ⟨hs1, hs2⟩ : size d = n ∧ size e = m := by cases hall with | cons hd t => cases t with | cons he _ => exact ⟨hd.1, he.1⟩
    simp only
    have hdd := d1 d (by simp)
    have hde := d1 e (by simp)
    rw [if_pos ⟨by rw [hdd, hs1], by rw [hde, hs2], by rw [i1.unlim]; simp, by rw [i1.unlim]; simp⟩]
    have hH : Holds size c (c.name, .nums [e, d] a.isInt (cells2 D a)) := by
      refine ⟨rfl, fun g hg => hval _ ⟨rfl, ?_, fun i hi => ?_⟩⟩
      · show [_, _] = a.shape
        rw [hg d (by simp [Var.dims]), hg e (by simp [Var.dims]), Option.getD_some, Option.getD_some, hs1, hs2, hshape]
      · change List.Forall₂ _ i [_, _] at hi
        rw [hg d (by simp [Var.dims]), hg e (by simp [Var.dims]), Option.getD_some, Option.getD_some, hs1, hs2] at hi
        cases hi with
        | @cons y _ ys _ hy hys =>
          cases hys with
          | @cons x _ xs _ hx hxs =>
            cases hxs
            exact hst [y, x] (.cons hy (.cons hx .nil))
    obtain ⟨f2, e2, i2, k2, u2⟩ := create_ok h1 hn hp hH
      (by intro x hx; simp only [Var.dims, List.mem_cons, List.not_mem_nil, or_false] at hx; rcases hx with rfl | rfl <;> assumption)
    exact ⟨f2, e2, i2⟩

theorem stored_f {a : Arr D.F} (h : Floats a) : ∀ i, List.Forall₂ (· < ·) i a.shape → stored D (a.get i) = a.get i := fun i hi => by
  obtain ⟨x, hx⟩ := h.2 i hi; rw [hx]; rfl

theorem save_one (hD : ∀ n : Int, -2 ^ 53 ≤ n → n < 2 ^ 53 → D.toInt (D.ofInt n) = n) {size : String → ℕ} {w : List (Field D.F)} {f : NcFile D.F} (h : FileInv size w f) (c : Field D.F)
    (hn : c.name ∉ w.map Field.name) (hc : Fits size c) : ∃ f', saveField D c f = .ok f' ∧ FileInv size (w ++ [c]) f' := by
  obtain ⟨name, kind, maxLen, annot, val⟩ := c
  cases kind <;> cases val <;> simp only [Fits] at hc
  case bool.bool b =>
    unfold saveField dump
    simp only
    obtain ⟨f', e, i, _⟩ := create_ok (c := ⟨name, .bool, maxLen, annot, .bool b⟩) (v := .nums [] true fun _ => .i (wrap32 (if b then 1 else 0))) h hn rfl
      ⟨rfl, fun g _ => ⟨.bool b, by cases b <;> rfl, rfl⟩⟩ (by simp [Var.dims])
    exact ⟨f', e, i⟩
  case int.int n =>
    unfold saveField dump
    simp only
    obtain ⟨f', e, i, _⟩ := create_ok (c := ⟨name, .int, maxLen, annot, .int n⟩) (v := .nums [] true fun _ => .i (wrap32 n)) h hn rfl
      ⟨rfl, fun g _ => ⟨.int n, by show some (PVal.int (wrap32 n)) = _; rw [wrap32_id hc.1 hc.2], rfl⟩⟩ (by simp [Var.dims])
    exact ⟨f', e, i⟩
  case float.float x =>
    unfold saveField dump
    simp only
    obtain ⟨f', e, i, _⟩ := create_ok (c := ⟨name, .float, maxLen, annot, .float x⟩) (v := .nums [] false fun _ => .f x) h hn rfl ⟨rfl, fun g _ => ⟨.float x, rfl, rfl⟩⟩ (by simp [Var.dims])
    exact ⟨f', e, i⟩
  case str.str s =>
    obtain ⟨ha, ht, hl, h0, hsz⟩ := hc
    unfold saveField dump
    simp only
    rw [if_neg (by omega)]
    obtain ⟨f1, e1, i1, v1, d1, m1⟩ := ensure_ok h.dim hsz h0
    rw [e1]
    simp only [Outcome.bind]
    rw [if_pos (by simpa using ha), if_pos hl]
    obtain ⟨f', e, i, _⟩ := create_ok (c := ⟨name, .str, maxLen, annot, .str s⟩) (v := .chars (dimDefault (maxLen.getD s.length)) (s ++ List.replicate (maxLen.getD s.length - s.length) 32))
      (inv_dims h i1 v1 m1) hn rfl ⟨rfl, fun g _ => ⟨.str s, by rw [load_str g _ s _ ha ht]; rfl, rfl⟩⟩ (by simp [Var.dims])
    exact ⟨f', e, i⟩
  case arr.arr a => exact array_ok h hn rfl rfl hc.2 (stored_f hc.1) fun b hb => ⟨.arr b, by simp only [validate]; rw [hb.1, hc.1.1]; rfl, hb⟩
  case optArr.arr a => exact array_ok h hn rfl rfl hc.2 (stored_f hc.1) fun b hb => ⟨.arr b, by simp only [validate]; rw [hb.1, hc.1.1]; rfl, hb⟩
  case optArr.none =>
    refine ⟨f, rfl, ⟨h.dim, ?_, h.known⟩⟩
    rw [List.filter_append, List.filter_cons_of_neg (by simp [Field.present]), List.filter_nil, List.append_nil]
    exact h.holds
  case intAsFloat.arr a =>
    obtain ⟨⟨hi, hall⟩, hd⟩ := hc
    refine array_ok h hn rfl (a := { isInt := false, shape := a.shape, get := fun i => match a.get i with | .i n => .f (D.ofInt n) | .f x => .f x }) rfl hd (fun i _ => ?_) fun b hb => ⟨_, rfl, ?_⟩
    · simp only; cases a.get i <;> rfl
    · refine ⟨hi.symm, hb.2.1, fun i hin => ?_⟩
      have e := hb.2.2 i hin
      have hin' : List.Forall₂ (· < ·) i a.shape := by have := hb.2.1; simp only at this hin; rwa [this] at hin
      obtain ⟨n, hn, n0, n1⟩ := hall i hin'
      simp only [hn] at e ⊢
      rw [e]; simp only; rw [hD n n0 n1]
  case intArr.arr a =>
    obtain ⟨⟨hi, hall⟩, hd⟩ := hc
    refine array_ok h hn rfl rfl hd (fun i hin => ?_) fun b hb => ⟨_, rfl, ?_⟩
    · obtain ⟨n, hn, n0, n1⟩ := hall i hin
      rw [hn]; show Num.i (wrap32 n) = _; rw [wrap32_id n0 n1]
    · refine ⟨hi.symm, hb.2.1, fun i hin => ?_⟩
      have e := hb.2.2 i hin
      have hin' : List.Forall₂ (· < ·) i a.shape := by have := hb.2.1; simp only at hin; rwa [this] at hin
      obtain ⟨n, hn, n0, n1⟩ := hall i hin'
      simp only [e, hn]
  case aux.arr pad a =>
    obtain ⟨hf, hd, n, hsh, hn1⟩ := hc
    refine array_ok h hn rfl rfl hd (stored_f hf) fun b hb => ⟨.arr (rightPad D 101 pad b), by simp only [validate]; rw [hb.1, hf.1]; rfl, ?_⟩
    have hbs : b.shape = [n] := hb.2.1.trans hsh
    refine ⟨?_, ?_, fun i hin => ?_⟩
    · unfold rightPad; rw [hbs]; exact hb.1
    · unfold rightPad; rw [hbs]; simp only [hsh]; rw [max_eq_left hn1]
    · unfold rightPad at hin ⊢
      rw [hbs] at hin ⊢
      simp only [max_eq_left hn1] at hin ⊢
      cases hin with
      | @cons k _ ks _ hk hks =>
        cases hks
        simp only
        rw [if_pos hk]
        exact hb.2.2 [k] (by rw [hbs]; exact .cons hk .nil)
  case extcur.arr a =>
    obtain ⟨hf, hd⟩ := hc
    by_cases h0 : a.shape = [0]
    · unfold saveField dump
      simp only [if_pos h0]
      obtain ⟨f', e, i, _⟩ := create_ok (c := ⟨name, .extcur, maxLen, annot, .arr a⟩) (v := .nums [] false fun _ => .f D.fill) h hn rfl
        ⟨rfl, fun g _ => ⟨_, rfl, hf.1.symm, h0.symm, fun i hin => by cases hin with | cons hk _ => exact absurd hk (Nat.not_lt_zero _)⟩⟩ (by simp [Var.dims])
      exact ⟨f', e, i⟩
    · refine array_ok h hn rfl (by unfold dump; simp only [if_neg h0]) (hd.resolve_left h0) (stored_f hf) fun b hb => ⟨.arr b, ?_, hb⟩
      have hne : b.shape ≠ [] := by
        have := (hd.resolve_left h0).1
        rw [hb.2.1]; intro he; rw [he] at this; simp at this
      simp only [validate]
      rw [if_pos hne, hb.1, hf.1]; rfl

/-! ## the file -/

theorem save_all (hD : ∀ n : Int, -2 ^ 53 ≤ n → n < 2 ^ 53 → D.toInt (D.ofInt n) = n) {size : String → ℕ} (w : List (Field D.F)) : ∀ (v : List (Field D.F)) (f : NcFile D.F), FileInv size v f →
    ((v ++ w).map Field.name).Nodup → (∀ c ∈ w, Fits size c) → ∃ f', saveFields D w f = .ok f' ∧ FileInv size (v ++ w) f' := by
  induction w with
  | nil => intro v f h _ _; exact ⟨f, rfl, by rwa [List.append_nil]⟩
  | cons c w ih =>
    intro v f h hn hc
    have hcn : c.name ∉ v.map Field.name := by
      rw [List.map_append, List.map_cons, List.nodup_append] at hn
      exact fun hx => hn.2.2 _ hx _ (List.mem_cons_self ..) rfl
    obtain ⟨f1, e1, i1⟩ := save_one hD h c hcn (hc c (List.mem_cons_self ..))
    obtain ⟨f2, e2, i2⟩ := ih (v ++ [c]) f1 i1 (by rwa [List.append_assoc, List.singleton_append]) fun x hx => hc x (List.mem_cons_of_mem _ hx)
    refine ⟨f2, ?_, by rwa [List.append_assoc, List.singleton_append] at i2⟩
    show (saveField D c f).bind (saveFields D w) = _
    rw [e1]; exact e2

/-- **C97** (round trip): if all fields have values of their type, the sizes of the dimensions belong to their names, no dimension is empty, and the strings are ASCII without white space at the ends,
    saving succeeds, and the file read back has exactly the fields that are not `None`, in the same order, with the same values.  The full claim is about all values of the fields: see the theorems
    `C97_*_fails`. -/
theorem C97_roundtrip_partial (hD : ∀ n : Int, -2 ^ 53 ≤ n → n < 2 ^ 53 → D.toInt (D.ofInt n) = n) {size : String → ℕ} (h1 : size "mn_mode_pot" = 100) (h2 : size "current_label" = 30)
    (h3 : size "dim_00006" = 6) (w : List (Field D.F)) (hn : (w.map Field.name).Nodup) (hw : ∀ c ∈ w, Fits size c) :
    ∃ f, save D w = .ok f ∧ List.Forall₂ (fun (c : Field D.F) r => r.1 = c.name ∧ ∃ u, validate D c.kind r.2 = some u ∧ u.Same c.val) (w.filter Field.present) (attrs D f) := by
  have h0 : FileInv size [] (newFile D) := by
    refine ⟨⟨rfl, fun n s h => ?_⟩, .nil, by simp [newFile]⟩
    unfold newFile at h
    simp only at h
    split_ifs at h with a b c
    · rw [a, h1]; exact (Option.some.inj h).symm
    · rw [b, h2]; exact (Option.some.inj h).symm
    · rw [c, h3]; exact (Option.some.inj h).symm
  obtain ⟨f, e, i⟩ := save_all hD w [] (newFile D) h0 (by simpa using hn) hw
  refine ⟨f, e, ?_⟩
  rw [List.nil_append] at i
  unfold attrs
  rw [List.forall₂_map_right_iff]
  have hk := i.known
  have hh := i.holds
  revert hk
  generalize f.vars = vs at hh ⊢
  generalize w.filter Field.present = ws at hh ⊢
  intro hk
  induction hh with
  | nil => exact .nil
  | @cons a v as vs' hd tl ih =>
    refine .cons ⟨hd.1, hd.2 f (hk v (List.mem_cons_self ..))⟩ (ih fun x hx => hk x (List.mem_cons_of_mem _ hx))

/-! ## loading with the defaults -/

theorem lookup_of {P : Field D.F → PVal D.F → Prop} {ws : List (Field D.F)} {as : List (String × PVal D.F)} (h : List.Forall₂ (fun (c : Field D.F) r => r.1 = c.name ∧ P c r.2) ws as)
    (hn : (ws.map Field.name).Nodup) : (∀ c ∈ ws, ∃ r, as.lookup c.name = some r ∧ P c r) ∧ ∀ n, (∀ c ∈ ws, c.name ≠ n) → as.lookup n = none := by
  induction h with
  | nil => exact ⟨by simp, by simp⟩
  | @cons c r ws as hd tl ih =>
    obtain ⟨k, v⟩ := r
    obtain ⟨rfl, hp⟩ := hd
    rw [List.map_cons, List.nodup_cons] at hn
    obtain ⟨i1, i2⟩ := ih hn.2
    refine ⟨fun x hx => ?_, fun n hx => ?_⟩
    · rcases List.mem_cons.1 hx with rfl | hx
      · exact ⟨v, by simp, hp⟩
      · obtain ⟨r, e, hr⟩ := i1 x hx
        refine ⟨r, ?_, hr⟩
        rw [List.lookup_cons, beq_eq_false_iff_ne.2, e]
        intro he
        exact hn.1 (he ▸ List.mem_map_of_mem hx)
    · rw [List.lookup_cons, beq_eq_false_iff_ne.2 (Ne.symm (hx c (List.mem_cons_self ..)))]
      exact i2 n fun x h => hx x (List.mem_cons_of_mem _ h)

theorem default_kept {as : List (String × PVal D.F)} {n : String} {r v : PVal D.F} (h : as.lookup n = some r) : setDefault D n v as = as := by
  unfold setDefault
  rw [if_pos]
  rw [List.any_eq_true]
  induction as with
  | nil => simp at h
  | cons x as ih =>
    rw [List.lookup_cons] at h
    cases hb : n == x.1 with
    | true => exact ⟨x, List.mem_cons_self .., decide_eq_true (eq_of_beq hb).symm⟩
    | false =>
      rw [hb] at h
      obtain ⟨y, hy, e⟩ := ih h
      exact ⟨y, List.mem_cons_of_mem _ hy, e⟩

/-- **C97** (saving and loading): under the hypotheses of `C97_roundtrip_partial`, for a file that has the fields which loading needs (and whose version is above 8), loading adds no default values: every
    field that is not `None` has the value that was saved, and no other field has a value. -/
theorem C97_load_partial (hD : ∀ n : Int, -2 ^ 53 ≤ n → n < 2 ^ 53 → D.toInt (D.ofInt n) = n) {size : String → ℕ} (h1 : size "mn_mode_pot" = 100) (h2 : size "current_label" = 30)
    (h3 : size "dim_00006" = 6) (w : List (Field D.F)) (hn : (w.map Field.name).Nodup) (hw : ∀ c ∈ w, Fits size c)
    (hm : ∃ c ∈ w, c.name = "mnmax" ∧ c.kind = .int ∧ ∃ n : Int, 0 ≤ n ∧ c.val = .int n) (hs : ∃ c ∈ w, c.name = "ns" ∧ c.kind = .int ∧ ∃ n : Int, 0 ≤ n ∧ c.val = .int n)
    {lasym : Bool} (hl : ∃ c ∈ w, c.name = "lasym__logical__" ∧ c.kind = .bool ∧ c.val = .bool lasym) (hv : ∃ c ∈ w, c.name = "version_" ∧ c.kind = .float ∧ ∃ x, c.val = .float x ∧ D.le8 x = false)
    (hf : ∃ c ∈ w, c.name = "lmns_full" ∧ c.present) (hr : ∃ c ∈ w, c.name = "lrfp__logical__" ∧ c.present) (hc : lasym = true → ∃ c ∈ w, c.name = "lmnc_full" ∧ c.present) :
    ∃ f a, save D w = .ok f ∧ fromFile D f = .ok a ∧ (∀ c ∈ w, c.present → ∃ r u, a.lookup c.name = some r ∧ validate D c.kind r = some u ∧ u.Same c.val) ∧
      ∀ n, (∀ c ∈ w, c.present → c.name ≠ n) → a.lookup n = none := by
  obtain ⟨f, e, hall⟩ := C97_roundtrip_partial hD h1 h2 h3 w hn hw
  obtain ⟨l1, l2⟩ := lookup_of (P := fun c r => ∃ u, validate D c.kind r = some u ∧ u.Same c.val) hall (List.Nodup.sublist (List.Sublist.map _ List.filter_sublist) hn)
  have get : ∀ c ∈ w, c.present → ∃ r, (attrs D f).lookup c.name = some r ∧ ∃ u, validate D c.kind r = some u ∧ u.Same c.val := fun c hcw hp => l1 c (List.mem_filter.2 ⟨hcw, hp⟩)
  refine ⟨f, attrs D f, e, ?_, fun c hcw hp => ?_, fun n h => l2 n fun c hcf => h c (List.mem_filter.1 hcf).1 (List.mem_filter.1 hcf).2⟩
  · have size_ok : ∀ name, (∃ c ∈ w, c.name = name ∧ c.kind = .int ∧ ∃ n : Int, 0 ≤ n ∧ c.val = .int n) → ∃ r k, (attrs D f).lookup name = some r ∧ asSize D r = .ok k := by
      rintro name ⟨c, hcw, rfl, hk, n, n0, hval⟩
      obtain ⟨r, hr, u, hu, hsame⟩ := get c hcw (by unfold Field.present; rw [hval])
      rw [hk] at hu
      rw [hval] at hsame
      refine ⟨r, n.toNat, hr, ?_⟩
      cases r <;> simp only [validate, reduceCtorEq, Option.some.injEq] at hu
      case int k => subst hu; injection hsame with hk; subst hk; simp only [asSize]; rw [if_pos n0]
      case arr a =>
        split_ifs at hu with hsh
        simp only [asSize]
        rw [if_pos hsh]
        cases hg : a.get [] with
        | f x => rw [hg] at hu; simp at hu
        | i k => rw [hg] at hu; simp only [Option.some.injEq] at hu; subst hu; injection hsame with hk; subst hk; simp only; rw [if_pos n0]
    obtain ⟨rm, m, hm, hm'⟩ := size_ok _ hm
    obtain ⟨rn, n, hn', hn''⟩ := size_ok _ hs
    have some_of : ∀ name, (∃ c ∈ w, c.name = name ∧ c.present) → ∃ r, (attrs D f).lookup name = some r := by
      rintro name ⟨c, hcw, rfl, hp⟩
      obtain ⟨r, hr, _⟩ := get c hcw hp
      exact ⟨r, hr⟩
    obtain ⟨rf, hrf⟩ := some_of _ hf
    obtain ⟨rr, hrr⟩ := some_of _ hr
    obtain ⟨rl, hrl, htl⟩ : ∃ r, (attrs D f).lookup "lasym__logical__" = some r ∧ truthy D r = lasym := by
      obtain ⟨c, hcw, hname, hk, hval⟩ := hl
      obtain ⟨r, hr, u, hu, hsame⟩ := get c hcw (by unfold Field.present; rw [hval])
      rw [hname] at hr
      refine ⟨r, hr, ?_⟩
      rw [hk] at hu
      rw [hval] at hsame
      cases r <;> simp only [validate, reduceCtorEq, Option.some.injEq] at hu
      case int k => subst hu; injection hsame
      case arr a =>
        split_ifs at hu with hsh
        cases hg : a.get [] with
        | f x => rw [hg] at hu; simp at hu
        | i k => rw [hg] at hu; simp only [Option.some.injEq] at hu; subst hu; simp only [truthy, hg]; injection hsame
    obtain ⟨rv, hrv, htv⟩ : ∃ r, (attrs D f).lookup "version_" = some r ∧ oldVersion D r = false := by
      obtain ⟨c, hcw, hname, hk, x, hval, hx⟩ := hv
      obtain ⟨r, hr, u, hu, hsame⟩ := get c hcw (by unfold Field.present; rw [hval])
      rw [hname] at hr
      refine ⟨r, hr, ?_⟩
      rw [hk] at hu
      rw [hval] at hsame
      cases r <;> simp only [validate, reduceCtorEq, Option.some.injEq] at hu
      case float k => subst hu; injection hsame with he; subst he; exact hx
      case arr a =>
        split_ifs at hu with hsh
        cases hg : a.get [] with
        | f y => rw [hg] at hu; simp only [Option.some.injEq] at hu; subst hu; injection hsame with he; subst he; simp only [oldVersion, hg]; exact hx
        | i k => rw [hg] at hu; simp only [Option.some.injEq] at hu; subst hu; injection hsame with he; subst he; simp only [oldVersion, hg]; exact hx
    have hc' : (if truthy D rl then setDefault D "lmnc_full" (.arr (zeros D m n)) (attrs D f) else attrs D f) = attrs D f := by
      rw [htl]
      cases hla : lasym with
      | false => rfl
      | true => obtain ⟨rc, hrc⟩ := some_of _ (hc hla); rw [if_pos rfl, default_kept hrc]
    unfold fromFile
    simp only [item, hm, hn', hm', hn'', Outcome.bind, default_kept hrf, hrl, hc', default_kept hrr, hrv, htv]
    rfl
  · obtain ⟨r, hr, u, hu⟩ := get c hcw hp
    exact ⟨r, u, hr, hu⟩

/-! ## files of other codes and of old versions -/

/-- the values which files of other codes may lack: the spline form of lambda is zero on `m` modes and `n` surfaces, the reversed-field flag is off -/
def lacking (D : Dbl) (m n : ℕ) (asym : Bool) : List (String × PVal D.F) :=
  let zero : PVal D.F := .arr { isInt := false, shape := [m, n], get := fun _ => .f D.zero }
  [("lmns_full", zero)] ++ (if asym then [("lmnc_full", zero)] else []) ++ [("lrfp__logical__", .int 0)]

/-- the values which files up to version 8 may lack: residuals and tolerance unknown, profiles of type `UNKNOWN` and without coefficients or knots -/
def lackingOld (D : Dbl) : List (String × PVal D.F) :=
  let unknown : PVal D.F := .str ("UNKNOWN".toList.map Char.toNat)
  let empty : PVal D.F := .arr { isInt := false, shape := [0], get := fun _ => .f D.zero }
  [("fsqr", .float D.nan), ("fsqz", .float D.nan), ("fsql", .float D.nan), ("ftolv", .float D.nan), ("pcurr_type", unknown), ("pmass_type", unknown), ("piota_type", unknown),
    ("am", empty), ("ac", empty), ("ai", empty), ("am_aux_s", empty), ("am_aux_f", empty), ("ac_aux_s", empty), ("ac_aux_f", empty), ("ai_aux_s", empty), ("ai_aux_f", empty)]

theorem any_lookup {V : Type} (a : List (String × V)) (n : String) : a.any (·.1 = n) = (a.lookup n).isSome := by
  induction a with
  | nil => rfl
  | cons p a ih =>
    rw [List.any_cons, ih, List.lookup_cons]
    by_cases h : p.1 = n
    · subst h; simp
    · have : (n == p.1) = false := by simpa using fun e => h e.symm
      simp [h, this]

theorem lookup_setDefault (name : String) (v : PVal D.F) (a : List (String × PVal D.F)) (x : String) :
    (setDefault D name v a).lookup x = (a.lookup x).or (if x = name then some v else none) := by
  unfold setDefault
  rw [any_lookup]
  split_ifs with h1 h2 h2
  · subst h2
    obtain ⟨r, hr⟩ := Option.isSome_iff_exists.1 h1
    rw [hr]; rfl
  · simp
  · subst h2
    rw [List.lookup_append]; simp [List.lookup_cons]
  · rw [List.lookup_append, List.lookup_cons]
    have : (x == name) = false := by simpa using h2
    simp [this]

theorem lookup_defaults (l a : List (String × PVal D.F)) (x : String) : (l.foldl (fun a p => setDefault D p.1 p.2 a) a).lookup x = (a.lookup x).or (l.lookup x) := by
  induction l generalizing a with
  | nil => simp
  | cons p l ih =>
    rw [List.foldl_cons, ih, lookup_setDefault, List.lookup_cons, Option.or_assoc]
    congr 1
    by_cases h : x = p.1
    · subst h; simp
    · have : (x == p.1) = false := by simpa using h
      simp [h, this]

/-- **C97** (files of other codes): from every file with whole numbers `mnmax`, `ns` and `lasym` and a version number, loading gives the values of the file and, for the names that the file lacks, exactly
    the documented values: those of `lackingOld` only up to version 8, the asymmetric part only for an asymmetric equilibrium. -/
theorem C97_defaults (f : NcFile D.F) (am an al av : Arr D.F) (m n l : Int) (v : D.F) (m0 : 0 ≤ m) (n0 : 0 ≤ n)
    (hm : (attrs D f).lookup "mnmax" = some (.arr am)) (sm : am.shape = []) (gm : am.get [] = .i m) (hn : (attrs D f).lookup "ns" = some (.arr an)) (sn : an.shape = []) (gn : an.get [] = .i n)
    (hl : (attrs D f).lookup "lasym__logical__" = some (.arr al)) (gl : al.get [] = .i l) (hv : (attrs D f).lookup "version_" = some (.arr av)) (gv : av.get [] = .f v) :
    ∃ a, fromFile D f = .ok a ∧
      ∀ x, a.lookup x = ((attrs D f).lookup x).or (((lacking D m.toNat n.toNat (l ≠ 0)) ++ (if D.le8 v then lackingOld D else [])).lookup x) := by
  have keep : ∀ (name : String) (val : PVal D.F) (a : List (String × PVal D.F)) (x : String) (r : PVal D.F), a.lookup x = some r → (setDefault D name val a).lookup x = some r := by
    intro name val a x r h
    rw [lookup_setDefault, h]; rfl
  have e1 : asSize D (.arr am) = .ok m.toNat := by simp only [asSize]; rw [if_pos sm, gm]; simp only; rw [if_pos m0]
  have e2 : asSize D (.arr an) = .ok n.toNat := by simp only [asSize]; rw [if_pos sn, gn]; simp only; rw [if_pos n0]
  have e3 : truthy D (.arr al) = decide (l ≠ 0) := by simp only [truthy, gl]
  have e4 : oldVersion D (.arr av) = D.le8 v := by simp only [oldVersion, gv]
  unfold fromFile
  simp only [item, hm, hn, e1, e2, Outcome.bind, keep _ _ _ _ _ hl, e3]
  have hv' : (setDefault D "lrfp__logical__" (.int 0) (if decide (l ≠ 0) = true then setDefault D "lmnc_full" (.arr (zeros D m.toNat n.toNat)) (setDefault D "lmns_full"
      (.arr (zeros D m.toNat n.toNat)) (attrs D f)) else setDefault D "lmns_full" (.arr (zeros D m.toNat n.toNat)) (attrs D f))).lookup "version_" = some (.arr av) := by
    apply keep
    split_ifs
    · exact keep _ _ _ _ _ (keep _ _ _ _ _ hv)
    · exact keep _ _ _ _ _ hv
  rw [hv']
  simp only [e4]
  refine ⟨_, rfl, fun x => ?_⟩
  rw [← lookup_defaults]
  have u : "UNKNOWN".toList.map Char.toNat = [85, 78, 75, 78, 79, 87, 78] := by decide
  congr 1
  by_cases h1 : l = 0 <;> cases h2 : D.le8 v <;>
    simp only [h1, ne_eq, not_true_eq_false, not_false_eq_true, if_true, decide_true, decide_false, Bool.false_eq_true, List.append_nil, List.nil_append, if_false, lacking, lackingOld, u, oldDefaults, zeros, emptyArr, List.foldl_append, List.foldl_cons, List.foldl_nil]

end Verif.PyOutput
