import Verif.Transform.Lemmas
import Verif.Transform.Spec
import Verif.Fourier.Orth

/-!
# The slots of the FFT variants
-/
namespace Verif.Transform
open Verif Verif.Fourier Partition Finset

theorem loop_upd {α : Type} (lo hi base : Int) (f : Int → α) (X : Int → α) (i : Int) :
    forRange lo hi (fun n X => upd X (base + n) (f n)) X i = if lo ≤ i - base ∧ i - base < hi then f (i - base) else X i := by
  rcases le_total hi lo with h | h
  · rw [forRange_empty h, if_neg (by omega)]
  · refine forRange_inv (lo := lo) (hi := hi) h (fun n X => upd X (base + n) (f n)) X
      (fun (j : Int) (t : Int → α) => t i = if lo ≤ i - base ∧ i - base < j then f (i - base) else X i) ?_ ?_
    · rw [if_neg (by omega)]
    · intro j t h1 h2 ih
      by_cases e : i = base + j
      · rw [e, upd_same, if_pos (by omega)]; congr 1; omega
      · rw [upd_ne _ _ e, ih]
        by_cases e' : lo ≤ i - base ∧ i - base < j
        · rw [if_pos e', if_pos (by omega)]
        · rw [if_neg e', if_neg (by omega)]

variable {c : Ctx}

/-- the sizes that matter here -/
structure Good (c : Ctx) : Prop where
  mpol : 1 ≤ c.s.mpol
  ntor : 0 ≤ c.s.ntor
  nyq : 2 * c.s.ntor < c.s.nZeta
  n2 : c.s.ntor < c.s.nnyq2 + 1

theorem Good.half (h : Good c) : nhalf c = c.s.nZeta / 2 + 1 := by
  unfold nhalf
  rw [Int.tdiv_eq_ediv_of_nonneg (by have := h.nyq; have := h.ntor; omega)]

theorem Good.half_lt (h : Good c) : c.s.ntor < nhalf c := by
  rw [h.half]; have := h.nyq; omega

/-- the value a `fill` leaves -/
def filled (c : Ctx) (x0 : Cpx) (f : Int → Cpx) (n : Int) : Cpx := if n = 0 then x0 else if n ≤ c.s.ntor then f n else ⟨0, 0⟩

theorem fill_apply (h : Good c) (x0 : Cpx) (f : Int → Cpx) (b b' n : Int) (X : Int → Cpx) (n0 : 0 ≤ n) (n1 : n < nhalf c) :
    fill c x0 f (b * nhalf c) X (b' * nhalf c + n) =
      if b' = b then filled c x0 f n else X (b' * nhalf c + n) := by
  unfold fill
  rw [loop_upd, loop_upd]
  have hl := h.half_lt
  have ht := h.ntor
  by_cases e : b' = b
  · subst e
    rw [if_pos rfl]
    unfold filled
    have e1 : b' * nhalf c + n - b' * nhalf c = n := by ring
    rw [e1]
    by_cases z : n = 0
    · subst z
      rw [if_neg (by omega), if_neg (by omega), if_pos rfl, upd_same]
    · rw [if_neg z]
      by_cases z' : n ≤ c.s.ntor
      · rw [if_neg (by omega), if_pos (by omega), if_pos z']
      · rw [if_pos (by omega), if_neg z']
  · rw [if_neg e]
    have key : ∀ k, 0 ≤ k → k < nhalf c → b' * nhalf c + n - b * nhalf c ≠ k := by
      intro k k0 k1 hk
      exact e (flat_inj n0 n1 k0 k1 (by omega : b' * nhalf c + n = b * nhalf c + k)).1
    rw [if_neg (fun hh => key _ (by omega) (by omega) rfl), if_neg (fun hh => key _ (by omega) (by omega) rfl), upd_ne]
    intro hh
    exact key 0 (by omega) (by omega) (by omega)

theorem slot_range (q : Slot) : 0 ≤ q.num ∧ q.num < kBatch := by
  cases q <;> decide

theorem slot_inj {m m' : Int} {q q' : Slot} (h : m * kBatch + q.num = m' * kBatch + q'.num) : m = m' ∧ q = q' := by
  obtain ⟨a, b⟩ := slot_range q
  obtain ⟨a', b'⟩ := slot_range q'
  obtain ⟨h1, h2⟩ := flat_inj a b a' b' h
  refine ⟨h1, ?_⟩
  revert h2
  cases q <;> cases q' <;> decide

/-- half spectrum of a slot -/
noncomputable def spectrum (c : Ctx) (x : Coef → Int → ℝ) : Slot → Int → Cpx
  | .rmkcc => filled c ⟨x .rcc 0 * nscale c 0, 0⟩ fun n => ⟨x .rcc n * nscale c n * 0.5, 0⟩
  | .rmkss => filled c ⟨0, 0⟩ fun n => ⟨0, -x .rss n * nscale c n * 0.5⟩
  | .rmkcc_n => filled c ⟨0, 0⟩ fun n => ⟨0, x .rcc n * (n * c.s.nfp : Int) * nscale c n * 0.5⟩
  | .rmkss_n => filled c ⟨0, 0⟩ fun n => ⟨x .rss n * (n * c.s.nfp : Int) * nscale c n * 0.5, 0⟩
  | .zmksc => filled c ⟨x .zsc 0 * nscale c 0, 0⟩ fun n => ⟨x .zsc n * nscale c n * 0.5, 0⟩
  | .zmkcs => filled c ⟨0, 0⟩ fun n => ⟨0, -x .zcs n * nscale c n * 0.5⟩
  | .zmksc_n => filled c ⟨0, 0⟩ fun n => ⟨0, x .zsc n * (n * c.s.nfp : Int) * nscale c n * 0.5⟩
  | .zmkcs_n => filled c ⟨0, 0⟩ fun n => ⟨x .zcs n * (n * c.s.nfp : Int) * nscale c n * 0.5, 0⟩
  | .lmksc => filled c ⟨x .lsc 0 * nscale c 0, 0⟩ fun n => ⟨x .lsc n * nscale c n * 0.5, 0⟩
  | .lmkcs => filled c ⟨0, 0⟩ fun n => ⟨0, -x .lcs n * nscale c n * 0.5⟩
  | .lmksc_n => filled c ⟨0, 0⟩ fun n => ⟨0, x .lsc n * (n * c.s.nfp : Int) * nscale c n * 0.5⟩
  | .lmkcs_n => filled c ⟨0, 0⟩ fun n => ⟨x .lcs n * (n * c.s.nfp : Int) * nscale c n * 0.5, 0⟩

/-- packing one mode writes its own slots and no others -/
theorem packMode_apply (h : Good c) (x : Coef → Int → ℝ) (jF m m' : Int) (q : Slot) (n : Int) (X : Int → Cpx)
    (hj : ¬ jF < jMin m) (n0 : 0 ≤ n) (n1 : n < nhalf c) :
    packMode c x jF m X (xSlot c m' q + n) =
      if m' = m then spectrum c (fun a n => x a (idxMn c c.r.nsMinF1 jF m n)) q n else X (xSlot c m' q + n) := by
  unfold packMode
  rw [if_neg hj]
  dsimp only
  unfold fillDct fillDst fillDctDeriv fillDstDeriv xSlot
  simp only [fill_apply h _ _ _ _ _ _ n0 n1]
  by_cases e : m' = m
  · subst e
    rw [if_pos rfl]
    cases q <;> simp [Slot.num, spectrum, idxMn]
  · rw [if_neg e]
    have key : ∀ q', m' * kBatch + q.num ≠ m * kBatch + Slot.num q' := fun q' hh => e (slot_inj hh).1
    simp only [key, if_false]

theorem packMode_other (h : Good c) (x : Coef → Int → ℝ) (jF m m' : Int) (q : Slot) (n : Int) (X : Int → Cpx) (hm : m' ≠ m)
    (n0 : 0 ≤ n) (n1 : n < nhalf c) : packMode c x jF m X (xSlot c m' q + n) = X (xSlot c m' q + n) := by
  by_cases hj : jF < jMin m
  · unfold packMode
    rw [if_pos hj]
    refine forRange_inv (lo := 0) (hi := kBatch) (by decide)
      (fun q X => forRange 0 (nhalf c) (fun n X => upd X (xSlotNum c m q + n) ⟨0, 0⟩) X) X
      (fun (_ : Int) (t : Int → Cpx) => t (xSlot c m' q + n) = X (xSlot c m' q + n)) rfl ?_
    intro q' t h1 h2 ih
    rw [loop_upd, if_neg, ih]
    intro hh
    unfold xSlot xSlotNum at hh
    have h3 := (flat_inj n0 n1 hh.1 hh.2 (show (m' * kBatch + q.num) * nhalf c + n = (m * kBatch + q') * nhalf c +
      ((m' * kBatch + q.num) * nhalf c + n - (m * kBatch + q') * nhalf c) by ring)).1
    exact hm (flat_inj (slot_range q).1 (slot_range q).2 h1 h2 h3).1
  · rw [packMode_apply h x jF m m' q n X hj n0 n1, if_neg hm]

/-- after the packing loop, every slot of a mode that is not skipped holds its half spectrum -/
theorem packed (h : Good c) (x : Coef → Int → ℝ) (jF m : Int) (q : Slot) (n : Int) (X : Int → Cpx) (hm0 : 0 ≤ m)
    (hm1 : m < c.s.mpol) (hj : ¬ jF < jMin m) (n0 : 0 ≤ n) (n1 : n < nhalf c) :
    forRange 0 c.s.mpol (fun m X => packMode c x jF m X) X (xSlot c m q + n) =
      spectrum c (fun a n => x a (idxMn c c.r.nsMinF1 jF m n)) q n := by
  have := forRange_inv (lo := 0) (hi := c.s.mpol) (by omega) (fun m X => packMode c x jF m X) X
    (fun (j : Int) (t : Int → Cpx) => m < j → t (xSlot c m q + n) = spectrum c (fun a n => x a (idxMn c c.r.nsMinF1 jF m n)) q n)
    (by intro hh; omega) (by
      intro j t h1 h2 ih hmj
      by_cases e : m = j
      · subst e
        rw [packMode_apply h x jF m m q n t hj n0 n1, if_pos rfl]
      · rw [packMode_other h x jF j m q n t e n0 n1]
        exact ih (by omega))
  exact this hm1

theorem torAt_eq (h : Good c) {k n : Int} (k0 : 0 ≤ k) (k1 : k < c.s.nZeta) (n0 : 0 ≤ n) (n1 : n ≤ c.s.ntor) :
    torAt c k n = torEntry c.s scale c.s.nfp n k :=
  tor_eq fastPoloidal (Or.inl rfl) c.s c.s.nfp n k n0 (by have := h.n2; omega) k0 k1

theorem nscale_eq (h : Good c) {n : Int} (n0 : 0 ≤ n) (n1 : n ≤ c.s.ntor) : nscale c n = scale n :=
  fillScale_eq _ _ n0 (by have := h.n2; omega)

/-- the documented synthesis of a filled half spectrum -/
theorem synthesis_filled (h : Good c) (x0 : Cpx) (f : Int → Cpx) (k : Int) (h0 : x0.im = 0) :
    Spec.synthesis c.s.nZeta (filled c x0 f) k = x0.re + 2 * ∑ n ∈ Ico 1 (c.s.ntor + 1),
      ((f n).re * Real.cos (2 * Real.pi * n * k / c.s.nZeta) - (f n).im * Real.sin (2 * Real.pi * n * k / c.s.nZeta)) := by
  have ht := h.ntor
  have hq := h.nyq
  unfold Spec.synthesis
  have e1 : (if 2 ∣ c.s.nZeta then (filled c x0 f (c.s.nZeta / 2)).re * Real.cos (Real.pi * k) else 0) = 0 := by
    split
    · rename_i hd
      unfold filled
      rw [if_neg (by omega), if_neg (by omega), zero_mul]
    · rfl
  rw [e1, add_zero]
  have e2 : (filled c x0 f 0).re = x0.re := by unfold filled; rw [if_pos rfl]
  rw [e2]
  congr 2
  symm
  refine Finset.sum_subset_zero_on_sdiff ?_ ?_ ?_
  · intro n hn
    rw [Finset.mem_Ico] at hn
    rw [Finset.mem_filter, Finset.mem_Ico]
    omega
  · intro n hn
    rw [Finset.mem_sdiff, Finset.mem_filter, Finset.mem_Ico, Finset.mem_Ico] at hn
    unfold filled
    rw [if_neg (by omega), if_neg (by omega), zero_mul, zero_mul, sub_zero]
  · intro n hn
    rw [Finset.mem_Ico] at hn
    unfold filled
    rw [if_neg (by omega), if_pos (by omega)]

theorem cos_arg (n k N : Int) : Real.cos (2 * Real.pi * n * k / N) = Real.cos (n * (2 * Real.pi * k / N)) := by
  congr 1; ring
theorem sin_arg (n k N : Int) : Real.sin (2 * Real.pi * n * k / N) = Real.sin (n * (2 * Real.pi * k / N)) := by
  congr 1; ring

/-- the library's synthesis of a slot is the direct sum -/
theorem synthesis_slot (h : Good c) (x : Coef → Int → ℝ) (q : Slot) (k : Int) (k0 : 0 ≤ k) (k1 : k < c.s.nZeta) :
    Spec.synthesis c.s.nZeta (spectrum c x q) k = ∑ n ∈ Ico 0 (c.s.ntor + 1), torTerm (fun a => x a n) (torAt c k n) q := by
  have ht := h.ntor
  rw [sum_Ico_int_first (by omega), zero_add]
  have z0 := torAt_eq h k0 k1 (le_refl 0) ht
  have zn := nscale_eq h (le_refl 0) ht
  cases q <;> unfold spectrum <;> dsimp only <;> rw [synthesis_filled h _ _ _ rfl, z0] <;> rw [Finset.mul_sum] <;>
    congr 1
  all_goals first
    | (unfold torTerm torEntry; simp [zn]; done)
    | (refine Finset.sum_congr rfl fun n hn => ?_
       rw [Finset.mem_Ico] at hn
       rw [torAt_eq h k0 k1 (by omega) (by omega), cos_arg, sin_arg, nscale_eq h (by omega) (by omega)]
       unfold torTerm torEntry
       push_cast
       ring)

end Verif.Transform
