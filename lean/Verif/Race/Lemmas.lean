import Verif.Race.Machine

/-!
# Soundness of the static check
-/
namespace Verif.Race
open Verif Verif.Partition

variable {V : Type} [DecidableEq V]

/-! ## Words -/

theorem acc_eq {a b : Acc V} (h : (a == b) = true) : a = b := by
  have h' : (a.var == b.var && (a.write == b.write && a.who == b.who)) = true := h
  simp only [Bool.and_eq_true, beq_iff_eq] at h'
  cases a; cases b; simp_all

theorem acc_refl (a : Acc V) : (a == a) = true := by
  show (a.var == a.var && (a.write == a.write && a.who == a.who)) = true
  simp

theorem mem_join {a : Acc V} {s r : List (Acc V)} (h : a ∈ s ∨ a ∈ r) : a ∈ join s r := by
  unfold join
  rw [List.mem_append]
  rcases h with h | h
  · by_cases hb : (r.any fun b => a == b) = true
    · right
      rw [List.any_eq_true] at hb
      obtain ⟨b, hb, e⟩ := hb
      rw [acc_eq e]; exact hb
    · left
      rw [List.mem_filter]
      exact ⟨h, by simpa using hb⟩
  · exact Or.inr h

theorem mem_within {s r : List (Acc V)} (h : within s r = true) {a : Acc V} (ha : a ∈ s) : a ∈ r := by
  unfold within at h
  rw [List.all_eq_true] at h
  have := h a ha
  rw [List.any_eq_true] at this
  obtain ⟨b, hb, e⟩ := this
  rw [acc_eq e]; exact hb

theorem tailAcc_append (cur : List (Acc V)) (w v : List (Op V)) :
    tailAcc cur (w ++ v) = tailAcc (tailAcc cur w) v := by
  induction w generalizing cur with
  | nil => rfl
  | cons o w ih => cases o <;> exact ih _

theorem clear_append (cur : List (Acc V)) (w v : List (Op V)) :
    Clear cur (w ++ v) ↔ Clear cur w ∧ Clear (tailAcc cur w) v := by
  induction w generalizing cur with
  | nil => simp [Clear, tailAcc]
  | cons o w ih =>
    cases o with
    | barrier => exact ih _
    | acc a =>
      show (_ ∧ _ ∧ Clear _ (w ++ v)) ↔ (_ ∧ _ ∧ Clear _ w) ∧ Clear (tailAcc _ w) v
      rw [ih]; tauto

/-- a property every word of a text has, started from any subset of `s` -/
def Sound (p : List (Op V)) (s r : List (Acc V)) : Prop :=
  ∀ cur, (∀ a ∈ cur, a ∈ s) → Clear cur p ∧ ∀ a ∈ tailAcc cur p, a ∈ r

theorem star_sound {p : Prog V} {s : List (Acc V)} (h : ∀ w, Word p w → Sound w s s) :
    ∀ w, Word (.star p) w → Sound w s s := by
  intro w hw
  generalize hq : Prog.star p = q at hw
  induction hw with
  | skip => cases hq
  | op => cases hq
  | seq => cases hq
  | altL => cases hq
  | altR => cases hq
  | done => exact fun cur hc => ⟨trivial, hc⟩
  | more h1 h2 _ ih2 =>
    cases hq
    intro cur hc
    obtain ⟨a1, a2⟩ := h _ h1 cur hc
    obtain ⟨b1, b2⟩ := ih2 rfl _ a2
    rw [clear_append, tailAcc_append]
    exact ⟨⟨a1, b1⟩, b2⟩

theorem chk_sound (p : Prog V) : ∀ (s r : List (Acc V)), chk p s = some r →
    ∀ w, Word p w → Sound w s r := by
  induction p with
  | skip =>
    intro s r h w hw
    cases hw
    simp only [chk, Option.some.injEq] at h
    subst h
    exact fun cur hc => ⟨trivial, hc⟩
  | op o =>
    intro s r h w hw
    cases hw
    cases o with
    | barrier =>
      intro cur _
      exact ⟨trivial, fun a ha => by simp [tailAcc] at ha⟩
    | acc a =>
      simp only [chk] at h
      split at h
      · rename_i hc
        rw [Bool.and_eq_true, List.all_eq_true] at hc
        cases h
        intro cur hcur
        refine ⟨⟨hc.1, fun b hb => hc.2 b (hcur b hb), trivial⟩, ?_⟩
        intro b hb
        simp only [tailAcc, List.mem_cons] at hb
        apply mem_join
        rcases hb with hb | hb
        · left; simp [hb]
        · right; exact hcur b hb
      · cases h
  | seq p q ihp ihq =>
    intro s r h w hw
    simp only [chk] at h
    rw [Option.bind_eq_some_iff] at h
    obtain ⟨a, ha, hq⟩ := h
    cases hw with
    | seq h1 h2 =>
      intro cur hc
      obtain ⟨a1, a2⟩ := ihp _ _ ha _ h1 cur hc
      obtain ⟨b1, b2⟩ := ihq _ _ hq _ h2 _ a2
      rw [clear_append, tailAcc_append]
      exact ⟨⟨a1, b1⟩, b2⟩
  | alt p q ihp ihq =>
    intro s r h w hw
    simp only [chk] at h
    rw [Option.bind_eq_some_iff] at h
    obtain ⟨a, ha, h⟩ := h
    rw [Option.bind_eq_some_iff] at h
    obtain ⟨b, hb, h⟩ := h
    cases h
    cases hw with
    | altL h1 =>
      intro cur hc
      obtain ⟨a1, a2⟩ := ihp _ _ ha _ h1 cur hc
      exact ⟨a1, fun x hx => mem_join (Or.inl (a2 x hx))⟩
    | altR h1 =>
      intro cur hc
      obtain ⟨a1, a2⟩ := ihq _ _ hb _ h1 cur hc
      exact ⟨a1, fun x hx => mem_join (Or.inr (a2 x hx))⟩
  | star p ih =>
    intro s r h w hw
    simp only [chk] at h
    rw [Option.bind_eq_some_iff] at h
    obtain ⟨a, ha, h⟩ := h
    rw [Option.bind_eq_some_iff] at h
    obtain ⟨b, hb, h⟩ := h
    rw [Option.bind_eq_some_iff] at h
    obtain ⟨c, hc, h⟩ := h
    split at h
    · rename_i hin
      cases h
      have hs := star_sound (s := join b (join a s)) (fun w hw cur hcur => by
        obtain ⟨a1, a2⟩ := ih _ _ hc w hw cur hcur
        exact ⟨a1, fun x hx => mem_within hin (a2 x hx)⟩) w hw
      exact fun cur hcur => hs cur fun x hx => mem_join (Or.inr (mem_join (Or.inr (hcur x hx))))
    · cases h

/-- every access of a text satisfies `f` -/
def forallAcc (f : Acc V → Bool) : Prog V → Bool
  | .skip => true
  | .op .barrier => true
  | .op (.acc a) => f a
  | .seq p q => forallAcc f p && forallAcc f q
  | .alt p q => forallAcc f p && forallAcc f q
  | .star p => forallAcc f p

theorem forallAcc_word {f : Acc V → Bool} {p : Prog V} {w : List (Op V)} (hw : Word p w) :
    forallAcc f p = true → ∀ a, Op.acc a ∈ w → f a = true := by
  induction hw with
  | skip => intro _ a h; simp at h
  | op o =>
    intro h a ha
    simp only [List.mem_singleton] at ha
    subst ha; exact h
  | seq h1 h2 ih1 ih2 =>
    intro h a ha
    simp only [forallAcc, Bool.and_eq_true] at h
    rcases List.mem_append.1 ha with ha | ha
    · exact ih1 h.1 a ha
    · exact ih2 h.2 a ha
  | altL h1 ih =>
    intro h a ha
    simp only [forallAcc, Bool.and_eq_true] at h
    exact ih h.1 a ha
  | altR h1 ih =>
    intro h a ha
    simp only [forallAcc, Bool.and_eq_true] at h
    exact ih h.2 a ha
  | done => intro _ a h; simp at h
  | more h1 h2 ih1 ih2 =>
    intro h a ha
    rcases List.mem_append.1 ha with ha | ha
    · exact ih1 h a ha
    · exact ih2 h a ha

theorem mem_tailAcc {a : Acc V} (cur : List (Acc V)) (w : List (Op V)) (h : a ∈ tailAcc cur w) :
    a ∈ cur ∨ Op.acc a ∈ w := by
  induction w generalizing cur with
  | nil => exact Or.inl h
  | cons o w ih =>
    cases o with
    | barrier =>
      rcases ih _ h with h | h
      · simp at h
      · exact Or.inr (List.mem_cons_of_mem _ h)
    | acc b =>
      rcases ih _ h with h | h
      · rcases List.mem_cons.1 h with h | h
        · right; simp [h]
        · exact Or.inl h
      · exact Or.inr (List.mem_cons_of_mem _ h)

/-- no barrier at the positions `i ≤ k < j` -/
def NoBar (w : List (Op V)) (i j : Nat) : Prop := ∀ k, i ≤ k → k < j → w[k]? ≠ some .barrier

theorem clear_self {cur : List (Acc V)} {w : List (Op V)} (h : Clear cur w) {i : Nat} {a : Acc V}
    (ha : w[i]? = some (.acc a)) : selfOk a = true := by
  induction w generalizing cur i with
  | nil => simp at ha
  | cons o w ih =>
    cases i with
    | zero =>
      simp only [List.getElem?_cons_zero, Option.some.injEq] at ha
      subst ha
      exact h.1
    | succ i =>
      simp only [List.getElem?_cons_succ] at ha
      cases o with
      | barrier => exact ih (cur := []) h ha
      | acc b => exact ih h.2.2 ha

theorem clear_cur {cur : List (Acc V)} {w : List (Op V)} (h : Clear cur w) {j : Nat} {a b : Acc V}
    (hb : w[j]? = some (.acc b)) (hn : NoBar w 0 j) (ha : a ∈ cur) : compat b a = true := by
  induction w generalizing cur j with
  | nil => simp at hb
  | cons o w ih =>
    cases j with
    | zero =>
      simp only [List.getElem?_cons_zero, Option.some.injEq] at hb
      subst hb
      exact h.2.1 a ha
    | succ j =>
      simp only [List.getElem?_cons_succ] at hb
      cases o with
      | barrier => exact absurd rfl (hn 0 (Nat.le_refl 0) (Nat.succ_pos j))
      | acc c =>
        refine ih h.2.2 hb (fun k _ hk => ?_) (List.mem_cons_of_mem _ ha)
        have := hn (k + 1) (Nat.zero_le _) (Nat.succ_lt_succ hk)
        simpa using this

theorem clear_pair {cur : List (Acc V)} {w : List (Op V)} (h : Clear cur w) {i j : Nat} {a b : Acc V}
    (ha : w[i]? = some (.acc a)) (hb : w[j]? = some (.acc b)) (hij : i < j) (hn : NoBar w i j) :
    compat b a = true := by
  induction w generalizing cur i j with
  | nil => simp at ha
  | cons o w ih =>
    cases j with
    | zero => omega
    | succ j =>
      simp only [List.getElem?_cons_succ] at hb
      have shift : ∀ l, NoBar (o :: w) l (j + 1) → ∀ m, l ≤ m + 1 → NoBar w m j := by
        intro l hl m hm k h1 h2
        have := hl (k + 1) (by omega) (by omega)
        simpa using this
      cases i with
      | zero =>
        simp only [List.getElem?_cons_zero, Option.some.injEq] at ha
        subst ha
        exact clear_cur h.2.2 hb (shift 0 hn 0 (by omega)) (by simp)
      | succ i =>
        simp only [List.getElem?_cons_succ] at ha
        have hn' := shift (i + 1) hn i (by omega)
        cases o with
        | barrier => exact ih (cur := []) h ha hb (by omega) hn'
        | acc c => exact ih h.2.2 ha hb (by omega) hn'

/-! ## The team -/

/-- accesses of one kind in different threads meet only if they are guarded -/
def Distinct (T : Team) (k : Who) : Prop :=
  ∀ (i j : Nat) (t u : Fin T.n) (c : Int × Int), t ≠ u → T.touches i k t c → T.touches j k u c →
    (k = .one → i = j) → guarded k k ∨ k = .all

/-- all threads are between the same two barriers -/
structure Inv {Val : Type} (T : Team) (w : List (Op V)) (s : St T V Val) : Prop where
  near : ∃ (k0 : Nat) (m0 : V → Int × Int → Val),
    (∀ t, k0 ≤ s.pc t ∧ NoBar w k0 (s.pc t)) ∧
    (∀ t i f, s.seen i t = some f → i < s.pc t) ∧
    (∀ t i f v, k0 ≤ i → s.seen i t = some f → w[i]? = some (.acc ⟨v, false, .all⟩) → f = m0 v) ∧
    (∀ t u i f g v, i < k0 → s.seen i t = some f → s.seen i u = some g →
      w[i]? = some (.acc ⟨v, false, .all⟩) → f = g) ∧
    (∀ v i, k0 ≤ i → NoBar w k0 i → w[i]? = some (.acc ⟨v, false, .all⟩) → s.mem v = m0 v)

theorem noBar_succ {w : List (Op V)} {k0 i : Nat} {a : Acc V} (h : NoBar w k0 i)
    (ha : w[i]? = some (.acc a)) : NoBar w k0 (i + 1) := by
  intro k h1 h2
  by_cases hk : k = i
  · subst hk; rw [ha]; simp
  · exact h k h1 (by omega)

theorem inv_reach {Val : Type} {T : Team} {w : List (Op V)} (hc : Clear [] w) {s : St T V Val}
    (h : Reach T w s) : Inv T w s := by
  induction h with
  | start m =>
    refine ⟨0, m, fun t => ⟨Nat.le_refl _, fun k _ hk => by simp at hk⟩, ?_, ?_, ?_, fun _ _ _ _ _ => rfl⟩
    · intro t i f h; cases h
    · intro t i f v _ h; cases h
    · intro t u i f g v _ h; cases h
  | step _ h' ih =>
    obtain ⟨k0, m0, hpc, hseen, hnew, hold, hmem⟩ := ih
    cases h' with
    | read t a h hr =>
      refine ⟨k0, m0, ?_, ?_, ?_, ?_, hmem⟩
      · intro u
        dsimp only
        split
        · exact ⟨by have := (hpc t).1; omega, noBar_succ (hpc t).2 h⟩
        · exact hpc u
      · intro u i f hs
        dsimp only at hs ⊢
        split at hs
        · rename_i hi
          rw [if_pos hi.2, hi.1]; exact Nat.lt_succ_self _
        · have := hseen u i f hs
          split
          · rename_i hu; subst hu; omega
          · exact this
      · intro u i f v hi hs hv
        dsimp only at hs
        split at hs
        · rename_i hiu
          cases hs
          rw [hiu.1, h] at hv
          cases hv
          exact hmem v _ (hpc t).1 (hpc t).2 h
        · exact hnew u i f v hi hs hv
      · intro u u' i f g v hi hs hs' hv
        dsimp only at hs hs'
        have hlt := (hpc t).1
        rw [if_neg (by omega)] at hs hs'
        exact hold u u' i f g v hi hs hs' hv
    | write t a m' h hw hm =>
      refine ⟨k0, m0, ?_, ?_, hnew, hold, ?_⟩
      · intro u
        dsimp only
        split
        · exact ⟨by have := (hpc t).1; omega, noBar_succ (hpc t).2 h⟩
        · exact hpc u
      · intro u i f hs
        have := hseen u i f hs
        dsimp only
        split
        · rename_i hu; subst hu; omega
        · exact this
      · intro v i hi hn hv
        have h0 := hmem v i hi hn hv
        rw [← h0]
        funext c
        by_contra hne
        obtain ⟨hva, -⟩ := hm v c hne
        subst hva
        rename_i s0 _
        rcases Nat.lt_trichotomy i (s0.pc t) with hlt | heq | hgt
        · have hcp := clear_pair hc hv h hlt (fun k h1 h2 => (hpc t).2 k (by omega) h2)
          simp [compat, hw, ordered] at hcp
          rw [hcp.1] at hcp
          simp at hcp
        · rw [heq, h] at hv
          simp only [Option.some.injEq, Op.acc.injEq] at hv
          have := congrArg Acc.write hv
          simp [hw] at this
        · have hcp := clear_pair hc h hv hgt (fun k h1 h2 => hn k (by have := (hpc t).1; omega) h2)
          simp [compat, hw, ordered] at hcp
    | sync k h ha =>
      refine ⟨k + 1, _, fun t => ⟨Nat.le_refl _, fun j h1 h2 => by dsimp only at h2; omega⟩,
        ?_, ?_, ?_, fun _ _ _ _ _ => rfl⟩
      · intro t i f hs
        have := hseen t i f hs
        rw [ha t] at this
        dsimp only; omega
      · intro t i f v hi hs _
        have := hseen t i f hs
        rw [ha t] at this
        omega
      · intro t u i f g v hi hs hs' hv
        dsimp only at hs hs'
        by_cases hik : i < k0
        · exact hold t u i f g v hik hs hs' hv
        · rw [hnew t i f v (by omega) hs hv, hnew u i g v (by omega) hs' hv]

theorem no_race {Val : Type} {T : Team} {w : List (Op V)} (hc : Clear [] w)
    (hd : ∀ a, Op.acc a ∈ w → Distinct T a.who) {s : St T V Val} (h : Reach T w s) :
    ¬ DataRace T w s := by
  obtain ⟨k0, m0, hpc, -⟩ := inv_reach hc h
  rintro ⟨t, u, htu, a, b, ha, hb, hv, hw, hg, c, hta, hub⟩
  have key : ∀ (t u : Fin T.n) (a b : Acc V), t ≠ u → w[s.pc t]? = some (.acc a) →
      w[s.pc u]? = some (.acc b) → a.var = b.var → (a.write = true ∨ b.write = true) →
      ¬ guarded a.who b.who → T.touches (s.pc t) a.who t c → T.touches (s.pc u) b.who u c →
      s.pc t ≤ s.pc u → False := by
    intro t u a b htu ha hb hv hw hg hta hub hle
    rcases Nat.lt_or_eq_of_le hle with hlt | heq
    · have hcp := clear_pair hc ha hb hlt (fun k h1 h2 => (hpc u).2 k (by have := (hpc t).1; omega) h2)
      have hwho : b.who = a.who ∧ ordered b.who = true := by
        unfold compat at hcp
        rw [← hv] at hcp
        rcases hw with hw | hw <;> simpa [hw] using hcp
      rw [hwho.1] at hub hg
      have hone : a.who = .one → s.pc t = s.pc u := by
        intro e
        rw [hwho.1, e] at hwho
        simp [ordered] at hwho
      rcases hd a (List.mem_of_getElem? ha) _ _ t u c htu hta hub hone with hgu | hall
      · exact hg hgu
      · rw [hwho.1, hall] at hwho
        simp [ordered] at hwho
    · rw [← heq, ha] at hb
      cases hb
      have hs := clear_self hc ha
      have hwa : a.write = true := by rcases hw with hw | hw <;> exact hw
      rcases hd a (List.mem_of_getElem? ha) _ _ t u c htu hta hub (fun _ => heq) with hgu | hall
      · exact hg hgu
      · simp [selfOk, hwa, hall] at hs
  rcases Nat.le_total (s.pc t) (s.pc u) with hle | hle
  · exact key t u a b htu ha hb hv hw hg hta hub hle
  · refine key u t b a (Ne.symm htu) hb ha hv.symm hw.symm ?_ hub hta hle
    rintro (⟨h1, h2⟩ | ⟨h1, h2⟩)
    · exact hg (Or.inl ⟨h2, h1⟩)
    · exact hg (Or.inr ⟨h2, h1⟩)

theorem same_value {Val : Type} {T : Team} {w : List (Op V)} (hc : Clear [] w) {s : St T V Val}
    (h : Reach T w s) {i : Nat} {v : V} (hv : w[i]? = some (.acc ⟨v, false, .all⟩))
    {t u : Fin T.n} {f g : Int × Int → Val} (hf : s.seen i t = some f) (hg : s.seen i u = some g) :
    f = g := by
  obtain ⟨k0, m0, -, -, hnew, hold, -⟩ := inv_reach hc h
  by_cases hi : i < k0
  · exact hold t u i f g v hi hf hg hv
  · rw [hnew t i f v (by omega) hf hv, hnew u i g v (by omega) hg hv]

/-! ## Roles -/

theorem pos_n {T : Team} (t : Fin T.n) : (0 : Int) < T.n := by
  have := t.isLt; omega

theorem split_distinct {n nt c : Int} (hn : 0 ≤ n) (hnt : 0 < nt) {t u : Int}
    (h1 : splitMin n nt t ≤ c) (h2 : c < splitMax n nt t) (h3 : splitMin n nt u ≤ c)
    (h4 : c < splitMax n nt u) : t = u := split_unique hn hnt h1 h2 h3 h4

theorem ranges_facts {T : Team} (hT : T.Admissible) (t : Fin T.n) {r : Ranges}
    (h : T.ranges t = .ok r) :
    r.nsMinF = splitMin (numSurfacesToDistribute T.ns T.lfreeb) T.n t ∧
    r.nsMaxF = splitMax (numSurfacesToDistribute T.ns T.lfreeb) T.n t ∧
    r.nsMinF1 = max 0 (r.nsMinF - 1) ∧ r.nsMaxF1 = min T.ns (r.nsMaxF + 1) := by
  have h0 := pos_n t
  have ht : isThread T.n (t : Int) := ⟨by omega, by have := t.isLt; omega⟩
  have hs := hT.surfaces
  have := (adjust_ok_iff (lfreeb := T.lfreeb) (r := r) (by omega) (by omega) ht).1 h
  exact ⟨this.2.1, this.2.2.1, this.2.2.2.1, this.2.2.2.2.1⟩

theorem lcfs_unique {T : Team} (hT : T.Admissible) {t u : Fin T.n} {r q : Ranges}
    (hr : T.ranges t = .ok r) (hq : T.ranges u = .ok q) (h1 : r.nsMaxF1 = T.ns)
    (h2 : q.nsMaxF1 = T.ns) : t = u := by
  have h0 := pos_n t
  have hs := hT.surfaces
  have hn : 0 ≤ numSurfacesToDistribute T.ns T.lfreeb := n_nonneg (by omega)
  have hle : numSurfacesToDistribute T.ns T.lfreeb ≤ T.ns := by
    unfold numSurfacesToDistribute; split <;> omega
  have key : ∀ (t : Fin T.n) (r : Ranges), T.ranges t = .ok r → r.nsMaxF1 = T.ns →
      (t : Int) + 1 = T.n := by
    intro t r hr h
    obtain ⟨-, e2, -, e4⟩ := ranges_facts hT t hr
    by_contra hne
    have ht := t.isLt
    have hlt : (t : Int) + 1 < T.n := by omega
    have hg := split_ge hn h0 hT.threads ((t : Int) + 1)
    have hl := split_le hn h0 hlt
    rw [e4, e2, splitMax_eq_succ hn h0] at h
    omega
  have a := key t r hr h1
  have b := key u q hq h2
  exact Fin.ext (by omega)

theorem axis_unique {T : Team} (hT : T.Admissible) {t u : Fin T.n} {r q : Ranges}
    (hr : T.ranges t = .ok r) (hq : T.ranges u = .ok q) (h1 : r.nsMinF1 = 0)
    (h2 : q.nsMinF1 = 0) : t = u := by
  have h0 := pos_n t
  have hs := hT.surfaces
  have hn : 0 ≤ numSurfacesToDistribute T.ns T.lfreeb := n_nonneg (by omega)
  have key : ∀ (t : Fin T.n) (r : Ranges), T.ranges t = .ok r → r.nsMinF1 = 0 →
      (t : Int) = 0 := by
    intro t r hr h
    obtain ⟨e1, -, e3, -⟩ := ranges_facts hT t hr
    by_contra hne
    have hpos : (1 : Int) ≤ t := by omega
    have hg := split_ge hn h0 hT.threads 0
    have hm := splitMin_mono hn h0 hpos
    rw [splitMax_eq_succ hn h0, splitMin_zero hn h0] at hg
    simp only [zero_add] at hg
    omega
  have a := key t r hr h1
  have b := key u q hq h2
  exact Fin.ext (by omega)

theorem distinct_simple (T : Team) {k : Who} (h : k = .all ∨ k = .one ∨ k = .master ∨ k = .crit ∨
    k = .atomic ∨ k = .part .toNext ∨ k = .part .toPrev ∨ k = .part .mine) : Distinct T k := by
  intro i j t u c htu h1 h2 h3
  rcases h with rfl | rfl | rfl | rfl | rfl | rfl | rfl | rfl
  · exact Or.inr rfl
  · have hij := h3 rfl
    subst hij
    have e1 : T.exec i = t := h1
    have e2 : T.exec i = u := h2
    exact absurd (e1.symm.trans e2) htu
  · have e1 : (t : Nat) = 0 := h1
    have e2 : (u : Nat) = 0 := h2
    exact absurd (Fin.ext (by omega)) htu
  · exact Or.inl (Or.inl ⟨rfl, rfl⟩)
  · exact Or.inl (Or.inr ⟨rfl, rfl⟩)
  · have e1 : c.1 = (t : Int) + 1 := h1
    have e2 : c.1 = (u : Int) + 1 := h2
    exact absurd (Fin.ext (by omega)) htu
  · have e1 : c.1 = (t : Int) - 1 := h1
    have e2 : c.1 = (u : Int) - 1 := h2
    exact absurd (Fin.ext (by omega)) htu
  · have e1 : c.1 = (t : Int) := h1
    have e2 : c.1 = (u : Int) := h2
    exact absurd (Fin.ext (by omega)) htu

theorem distinct_point (T : Team) (h : 0 ≤ T.nZnT) : Distinct T (.part .byPoint) := by
  intro i j t u c htu h1 h2 _
  have := split_distinct h (pos_n t) h1.1 h1.2 h2.1 h2.2
  exact absurd (Fin.ext (by omega)) htu

theorem distinct (T : Team) (hT : T.Admissible) (k : Who) : Distinct T k := by
  cases k with
  | all => exact distinct_simple T (by simp)
  | one => exact distinct_simple T (by simp)
  | master => exact distinct_simple T (by simp)
  | crit => exact distinct_simple T (by simp)
  | atomic => exact distinct_simple T (by simp)
  | lcfs =>
    rintro i j t u c htu ⟨r, h1, h2⟩ ⟨q, h3, h4⟩ _
    exact absurd (lcfs_unique hT h1 h3 h2 h4) htu
  | axis =>
    rintro i j t u c htu ⟨r, h1, h2⟩ ⟨q, h3, h4⟩ _
    exact absurd (axis_unique hT h1 h3 h2 h4) htu
  | part k =>
    cases k with
    | toNext => exact distinct_simple T (by simp)
    | toPrev => exact distinct_simple T (by simp)
    | mine => exact distinct_simple T (by simp)
    | byPoint => exact distinct_point T hT.nZnT
    | byMode =>
      intro i j t u c htu h1 h2 _
      have := split_distinct hT.mnsize (pos_n t) h1.1 h1.2 h2.1 h2.2
      exact absurd (Fin.ext (by omega)) htu
    | bySurface =>
      rintro i j t u c htu ⟨r, h1, h2, h3⟩ ⟨q, h4, h5, h6⟩ _
      obtain ⟨e1, e2, -⟩ := ranges_facts hT t h1
      obtain ⟨f1, f2, -⟩ := ranges_facts hT u h4
      rw [e1] at h2; rw [e2] at h3; rw [f1] at h5; rw [f2] at h6
      have hs := hT.surfaces
      have := split_distinct (n_nonneg (by omega)) (pos_n t) h2 h3 h5 h6
      exact absurd (Fin.ext (by omega)) htu

/-- Early end of a word, followed by the common ending. -/
theorem clear_ending {p : Prog V} {r : List (Acc V)} (hc : chk p [] = some r) {w pre : List (Op V)}
    (hw : Word p w) (hp : pre <+: w) (e : List (Op V)) (f : Acc V → Bool)
    (hf : forallAcc f p = true) (he : ∀ cur, (∀ a ∈ cur, f a = true) → Clear cur e) :
    Clear [] (pre ++ e) := by
  obtain ⟨v, rfl⟩ := hp
  have h1 := (chk_sound p [] r hc _ hw [] (by simp)).1
  rw [clear_append] at h1
  rw [clear_append]
  refine ⟨h1.1, he _ fun a ha => ?_⟩
  rcases mem_tailAcc _ _ ha with h | h
  · simp at h
  · exact forallAcc_word hw hf a (List.mem_append_left _ h)

/-- the word in which every first branch is taken and every loop is run once -/
def first : Prog V → List (Op V)
  | .skip => []
  | .op o => [o]
  | .seq p q => first p ++ first q
  | .alt p _ => first p
  | .star p => first p

theorem first_word (p : Prog V) : Word p (first p) := by
  induction p with
  | skip => exact .skip
  | op o => exact .op o
  | seq p q ih1 ih2 => exact .seq ih1 ih2
  | alt p q ih1 _ => exact .altL ih1
  | star p ih =>
    have := Word.more ih .done
    rwa [List.append_nil] at this

end Verif.Race
