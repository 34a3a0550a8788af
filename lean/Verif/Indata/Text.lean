import Verif.Indata.Props
import Mathlib.Tactic.DeriveCountable
import Mathlib.Data.Rat.Encodable
import Mathlib.Logic.Equiv.List

/-!
# There is a text layer

The theorems of C24 assume that the JSON library reads back what it wrote (`TextLayer`).  The assumption can be met: the
documents that text can express are countable.
-/
namespace Verif.Indata
open Verif

/-- documents as finite trees -/
inductive Tree where
  | null
  | bool (b : Bool)
  | int (i : Int)
  | float (q : ℚ)
  | str (s : String)
  | arr (t : Tree)
  | obj (t : Tree)
  | nil
  | cons (key : String) (head tail : Tree)

instance : Countable Char := Function.Injective.countable (f := Char.toNat) fun _ _ h => Char.toNat_inj.1 h

instance : Countable String := Function.Injective.countable (f := String.toList) fun _ _ h => String.toList_injective h

deriving instance Countable for Tree

/-- the document, list of documents and table of documents that a tree stands for -/
def Tree.dec : Tree → Json × List Json × Obj
  | .null => (.null, [], fun _ => none)
  | .bool b => (.bool b, [], fun _ => none)
  | .int i => (.int i, [], fun _ => none)
  | .float q => (.float (.fin q), [], fun _ => none)
  | .str s => (.str s, [], fun _ => none)
  | .arr t => (.arr t.dec.2.1, [], fun _ => none)
  | .obj t => (.obj t.dec.2.2, [], fun _ => none)
  | .nil => (.null, [], fun _ => none)
  | .cons k h t => (.null, h.dec.1 :: t.dec.2.1, put t.dec.2.2 k h.dec.1)

theorem Tree.complete {j : Json} (h : Finite j) : ∃ t : Tree, t.dec.1 = j := by
  induction h with
  | null => exact ⟨.null, rfl⟩
  | bool b => exact ⟨.bool b, rfl⟩
  | int i _ => exact ⟨.int i, rfl⟩
  | float x h =>
    cases x with
    | fin q => exact ⟨.float q, rfl⟩
    | nan => simp [D.isFinite] at h
    | ninf => simp [D.isFinite] at h
    | pinf => simp [D.isFinite] at h
  | str s => exact ⟨.str s, rfl⟩
  | arr l _ ih =>
    have : ∃ t : Tree, t.dec.2.1 = l := by
      induction l with
      | nil => exact ⟨.nil, rfl⟩
      | cons a l il =>
        obtain ⟨t, ht⟩ := il (fun j hj => by rename_i hf; exact hf j (by simp [hj])) fun j hj => ih j (by simp [hj])
        obtain ⟨u, hu⟩ := ih a (by simp)
        exact ⟨.cons "" u t, by rw [Tree.dec, hu, ht]⟩
    obtain ⟨t, ht⟩ := this
    exact ⟨.arr t, by rw [Tree.dec, ht]⟩
  | obj f _ keys hk ih =>
    have : ∀ K : List String, ∃ t : Tree, t.dec.2.2 = fun k => if k ∈ K then f k else none := by
      intro K
      induction K with
      | nil => exact ⟨.nil, by simp [Tree.dec]⟩
      | cons a K il =>
        obtain ⟨t, ht⟩ := il
        cases e : f a with
        | none =>
          refine ⟨t, ?_⟩
          rw [ht]
          funext k
          by_cases hka : k = a
          · simp [hka, e]
          · simp [hka]
        | some v =>
          obtain ⟨u, hu⟩ := ih a v e
          refine ⟨.cons a u t, ?_⟩
          rw [Tree.dec, hu, ht]
          funext k
          unfold put
          by_cases hka : k = a
          · simp [hka, e]
          · simp [hka]
    obtain ⟨t, ht⟩ := this keys
    refine ⟨.obj t, ?_⟩
    rw [Tree.dec, ht]
    refine congrArg Json.obj (funext fun k => ?_)
    split
    · rfl
    · rename_i hne
      by_contra h0
      exact hne (hk k fun h1 => h0 h1.symm)

/-- the assumption of the C24 theorems can be met -/
theorem textLayer_exists : ∃ (dump : Json → String) (parse : String → Option Json), TextLayer dump parse := by
  classical
  obtain ⟨code, hcode⟩ := (countable_iff_exists_injective Tree).1 inferInstance
  let tree : Json → Tree := fun j => if h : Finite j then (Tree.complete h).choose else .null
  have htree : ∀ j, Finite j → (tree j).dec.1 = j := fun j h => by
    simp only [tree, dif_pos h]
    exact (Tree.complete h).choose_spec
  let dump : Json → String := fun j => String.ofList (List.replicate (code (tree j)) 'a')
  have hdump : ∀ i j, Finite i → Finite j → dump i = dump j → i = j := by
    intro i j hi hj h
    have h1 := congrArg (fun s => s.toList.length) h
    simp only [dump, String.toList_ofList, List.length_replicate] at h1
    rw [← htree i hi, ← htree j hj, hcode h1]
  refine ⟨dump, fun t => if h : ∃ j, Finite j ∧ dump j = t then some h.choose else none, ?_, ?_⟩
  · intro j hj
    have h : ∃ i, Finite i ∧ dump i = dump j := ⟨j, hj, rfl⟩
    rw [dif_pos h]
    exact congrArg some (hdump _ _ h.choose_spec.1 hj h.choose_spec.2)
  · intro t j h
    split at h
    · rename_i hh
      cases h
      exact hh.choose_spec.1
    · cases h

/-- a symmetric three-dimensional input with two grids -/
def sample : Indata := { init with
  nfp := 5, mpol := 3, ntor := 1, ns_array := [5, 11], ftol_array := [.fin (1 / 100), .fin (1 / 10 ^ 8)], niter_array := [50, 100]
  am := [.fin 1, .fin (-1)], raxis_c := [.fin 6, .fin 0], zaxis_s := [.fin 0, .fin (1 / 3)]
  rbc := ⟨3, 3, fun i j => if i = 1 ∧ j = 1 then .fin 2 else if i = 0 ∧ j = 2 then .fin (1 / 7) else .fin 0⟩
  zbs := ⟨3, 3, fun i j => if i = 1 ∧ j = 1 then .fin 2 else .fin 0⟩ }

/-- the same input without stellarator symmetry -/
def sampleAsym : Indata := { sample with
  lasym := true, raxis_s := some [.fin 0, .fin 1], zaxis_c := some [.fin 2, .fin 1]
  rbs := some ⟨3, 3, fun _ _ => .fin 1⟩, zbc := some ⟨3, 3, fun _ _ => .fin 1⟩ }

theorem sample_documented : Documented sample := (C23_ok_iff sample false).1 (by decide +kernel)

theorem sampleAsym_documented : Documented sampleAsym := (C23_ok_iff sampleAsym false).1 (by decide +kernel)

theorem sample_matching : Matching sample := ⟨rfl, rfl, rfl, rfl, rfl⟩

theorem plain_with {d : Indata} (P : Plain d) {nfp mpol ntor : Int} {ns ni : List Int} {ft am rc zs : List D} {R Z : Mat D} (h1 : IsInt nfp) (h2 : IsInt mpol)
    (h3 : IsInt ntor) (h4 : ∀ n ∈ ns, IsInt n) (h5 : ∀ n ∈ ni, IsInt n) (h6 : ∀ x ∈ ft, x.isFinite = true) (h7 : ∀ x ∈ am, x.isFinite = true)
    (h8 : ∀ x ∈ rc, x.isFinite = true) (h9 : ∀ x ∈ zs, x.isFinite = true) (h10 : AllFin R) (h11 : AllFin Z) :
    Plain { d with nfp := nfp, mpol := mpol, ntor := ntor, ns_array := ns, niter_array := ni, ftol_array := ft, am := am, raxis_c := rc, zaxis_s := zs, rbc := R, zbs := Z } :=
  { P with nfp := h1, mpol := h2, ntor := h3, ns_array := h4, niter_array := h5, ftol_array := h6, am := h7, raxis_c := h8, zaxis_s := h9, rbc := h10, zbs := h11 }

theorem sample_plain : Plain sample := by
  unfold sample
  refine plain_with good_init.plain ?_ ?_ ?_ ?_ ?_ ?_ ?_ ?_ ?_ ?_ ?_
  · unfold IsInt; norm_num
  · unfold IsInt; norm_num
  · unfold IsInt; norm_num
  · intro n hn; simp at hn; unfold IsInt; omega
  · intro n hn; simp at hn; unfold IsInt; omega
  · intro n hn; simp at hn; rcases hn with rfl | rfl <;> rfl
  · intro n hn; simp at hn; rcases hn with rfl | rfl <;> rfl
  · intro n hn; simp at hn; rcases hn with rfl | rfl <;> rfl
  · intro n hn; simp at hn; rcases hn with rfl | rfl <;> rfl
  · intro i j _ _ _ _; dsimp only; split
    · rfl
    · split <;> rfl
  · intro i j _ _ _ _; dsimp only; split <;> rfl

theorem sampleAsym_plain : Plain sampleAsym :=
  { sample_plain with
    raxis_s := by rintro v ⟨⟩ x hx; simp at hx; rcases hx with rfl | rfl <;> rfl
    zaxis_c := by rintro v ⟨⟩ x hx; simp at hx; rcases hx with rfl | rfl <;> rfl
    rbs := by rintro a ⟨⟩ i j _ _ _ _; rfl
    zbc := by rintro a ⟨⟩ i j _ _ _ _; rfl }

/-- the hypotheses of `C24_roundtrip_partial` are met: the sample input survives ... -/
example : ∃ (dump : Json → String) (parse : String → Option Json), TextLayer dump parse ∧ ∃ text d',
    toJson dump sample = .ok text ∧ fromJson parse text = .ok d' ∧ Equal d' sample := by
  obtain ⟨dump, parse, T⟩ := textLayer_exists
  exact ⟨dump, parse, T, C24_roundtrip_partial dump parse T sample_documented sample_plain sample_matching rfl⟩

/-- ... is accepted and survives again ... -/
example : ∃ (dump : Json → String) (parse : String → Option Json), TextLayer dump parse ∧ ∃ source d, fromJson parse source = .ok d ∧ d.lasym = false ∧ ∃ text d',
    toJson dump d = .ok text ∧ fromJson parse text = .ok d' ∧ Equal d' d := by
  obtain ⟨dump, parse, T⟩ := textLayer_exists
  obtain ⟨t, d, -, h, e⟩ := C24_roundtrip_partial dump parse T sample_documented sample_plain sample_matching rfl
  have hl : d.lasym = false := by have := congrArg Indata.lasym e.plain; exact this
  exact ⟨dump, parse, T, t, d, h, hl, C24_accepted_partial dump parse T h hl⟩

/-- ... and the asymmetric one does not -/
theorem C24_asymmetric_witness : ∃ (dump : Json → String) (parse : String → Option Json) (d : Indata), TextLayer dump parse ∧ isConsistent d true = .ok () ∧
    ∃ text, toJson dump d = .ok text ∧ fromJson parse text = .status "raxis_s" := by
  obtain ⟨dump, parse, T⟩ := textLayer_exists
  exact ⟨dump, parse, sampleAsym, T, (C23_ok_iff _ _).2 sampleAsym_documented,
    C24_asymmetric_fails dump parse T sampleAsym_documented sampleAsym_plain ⟨rfl, rfl, rfl, rfl, rfl⟩ rfl⟩

end Verif.Indata
