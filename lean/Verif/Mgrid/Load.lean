import Verif.Mgrid.Props

/-!
# C36: loading an external field
-/
namespace Verif.Mgrid
open Verif Finset

variable {K : Type} [Field K] [LinearOrder K] [IsStrictOrderedRing K] [FloorRing K]

/-- specification: `g` holds, for `n` coil groups with response `B` and currents `I`, the superposed field at
    every grid point -/
structure Holds (g : MGrid K) (n : Int) (B : Int → Comp → Int → Int → Int → K) (I : Int → K) : Prop where
  loaded : g.loaded = true
  fixed : g.fixed = false
  size : ∀ c, (g.b c).size = g.numPhi * g.numZ * g.numR
  val : ∀ c k j i, 0 ≤ k → k < g.numPhi → 0 ≤ j → j < g.numZ → 0 ≤ i → i < g.numR →
    node g c k j i = ∑ m ∈ Ico 0 n, B m c k j i * I m

/-- the grid of a file header -/
structure HeaderGrid (g : MGrid K) (h : Header K) : Prop where
  nfp : g.nfp = h.nfp
  numR : g.numR = h.ir
  minR : g.minR = h.rmin
  maxR : g.maxR = h.rmax
  dr : g.deltaR = delta h.rmin h.rmax h.ir
  numZ : g.numZ = h.jz
  minZ : g.minZ = h.zmin
  maxZ : g.maxZ = h.zmax
  dz : g.deltaZ = delta h.zmin h.zmax h.jz
  numPhi : g.numPhi = h.kp

/-- value of variable `br_%03d` etc. of coil group `m` at a grid point -/
def fileB (f : File K) (m : Int) (c : Comp) (k j i : Int) : K :=
  match f.field m c with
  | some a => a.val k j i
  | none => 0

/-- state of `LoadFile` before coil group `m` if all went well -/
structure FileInv (g0 : MGrid K) (f : File K) (cur : Vec K) (m : Int) (s : MGrid K × Outcome Unit) : Prop where
  ok : s.2 = .ok ()
  same : { s.1 with b := g0.b } = g0
  size : Sized (g0.numPhi * g0.numZ * g0.numR) s.1.b
  val : ∀ c k j i, 0 ≤ k → k < g0.numPhi → 0 ≤ j → j < g0.numZ → 0 ≤ i → i < g0.numR →
    (s.1.b c).val ((k * g0.numZ + j) * g0.numR + i) = ∑ m ∈ Ico 0 m, fileB f m c k j i * cur.val m

omit [LinearOrder K] [IsStrictOrderedRing K] [FloorRing K] in
theorem fileCoil_ok (g0 : MGrid K) (f : File K) (cur : Vec K) (m : Int) (s : MGrid K × Outcome Unit)
    (hm : 0 ≤ m ∧ m < cur.size) (hP : 0 ≤ g0.numPhi) (hZ : 0 ≤ g0.numZ) (hR : 0 ≤ g0.numR)
    (h : FileInv g0 f cur m s) :
    FileInv g0 f cur (m + 1) (fileCoil f cur m s) ∨ ∃ w, (fileCoil f cur m s).2 = .status w := by
  obtain ⟨hok, hsame, hsize, hval⟩ := h
  obtain ⟨g, o⟩ := s
  dsimp only at hok hsame hsize hval
  subst hok
  have eP : g.numPhi = g0.numPhi := by rw [← hsame]
  have eZ : g.numZ = g0.numZ := by rw [← hsame]
  have eR : g.numR = g0.numR := by rw [← hsame]
  unfold fileCoil
  dsimp only
  rw [eP, eZ, eR]
  rcases hr : f.field m .r with _ | ar
  · right; exact ⟨_, rfl⟩
  rcases hp : f.field m .p with _ | ap
  · right; exact ⟨_, rfl⟩
  rcases hz : f.field m .z with _ | az
  · right; exact ⟨_, rfl⟩
  dsimp only
  split
  · rename_i hsh
    left
    simp only [Bool.and_eq_true] at hsh
    obtain ⟨b', e, hb⟩ := fileAccumulate_ok g0.numPhi g0.numZ g0.numR hP hZ hR ar ap az hsh.1.1 hsh.1.2 hsh.2
      cur m hm g.b hsize
    rw [e]
    dsimp only
    refine ⟨rfl, ?_, hb.1, ?_⟩
    · dsimp only; rw [← hsame]
    · intro c k j i k0 k1 j0 j1 i0 i1
      obtain ⟨l0, l1⟩ := lin_bounds ⟨k0, k1⟩ ⟨j0, j1⟩ ⟨i0, i1⟩
      dsimp only
      rw [hb.2 c _ l0 l1, if_pos l1, hval c k j i k0 k1 j0 j1 i0 i1, sum_Ico_int_succ hm.1]
      beta_reduce
      rw [flatVal_at _ _ _ _ _ _ ⟨j0, j1⟩ ⟨i0, i1⟩]
      congr 2
      unfold fileB pick
      cases c <;> simp [hr, hp, hz]
  · right; exact ⟨_, rfl⟩

omit [LinearOrder K] [IsStrictOrderedRing K] [FloorRing K] in
theorem fileCoil_stuck (f : File K) (cur : Vec K) (m : Int) (s : MGrid K × Outcome Unit) (w : String)
    (h : s.2 = .status w) : (fileCoil f cur m s).2 = .status w := by
  unfold fileCoil
  rw [h]
  dsimp only
  exact h

omit [LinearOrder K] [IsStrictOrderedRing K] [FloorRing K] in
/-- the loop over coil groups either adds up all contributions or stops with an error -/
theorem fileLoop (g0 : MGrid K) (f : File K) (cur : Vec K) (hcur : 0 ≤ cur.size) (hP : 0 ≤ g0.numPhi)
    (hZ : 0 ≤ g0.numZ) (hR : 0 ≤ g0.numR)
    (hb : ∀ c, g0.b c = ⟨g0.numPhi * g0.numZ * g0.numR, fun _ => 0⟩) :
    FileInv g0 f cur cur.size (forRange 0 cur.size (fileCoil f cur) (g0, .ok ())) ∨
      ∃ w, (forRange 0 cur.size (fileCoil f cur) (g0, .ok ())).2 = .status w := by
  refine forRange_inv (lo := 0) (hi := cur.size) hcur (fileCoil f cur) (g0, .ok ())
    (fun (m : Int) (s : MGrid K × Outcome Unit) => FileInv g0 f cur m s ∨ ∃ w, s.2 = .status w) ?_ ?_
  · left
    refine ⟨rfl, rfl, fun c => by rw [hb c], ?_⟩
    intro c k j i _ _ _ _ _ _
    dsimp only
    rw [hb c]; simp
  · intro m s hm0 hm1 h
    rcases h with h | ⟨w, h⟩
    · exact fileCoil_ok g0 f cur m s ⟨hm0, hm1⟩ hP hZ hR h
    · exact Or.inr ⟨w, fileCoil_stuck f cur m s w h⟩

/-- `LoadFile` on a file with non-negative dimensions never has undefined behaviour, and if it succeeds the
    object holds `Σ I_m B_m` on the grid of the file, whatever it held before. -/
theorem C36_file_superposition (g : MGrid K) (f : File K) (cur : Vec K) (hcur : 0 ≤ cur.size)
    (hdim : ∀ h, f.header = some h → 0 ≤ h.kp ∧ 0 ≤ h.jz ∧ 0 ≤ h.ir) :
    (∃ w, (loadFile g f cur).2 = .status w) ∨
    ((loadFile g f cur).2 = .ok () ∧ ∃ h, f.header = some h ∧ HeaderGrid (loadFile g f cur).1 h ∧
      (loadFile g f cur).1.nextcur = cur.size ∧
      Holds (loadFile g f cur).1 cur.size (fileB f) cur.val) := by
  unfold loadFile
  split
  · left; exact ⟨_, rfl⟩
  split
  · left; exact ⟨_, rfl⟩
  split
  · left; exact ⟨_, rfl⟩
  rcases hh : f.header with _ | h
  · left; exact ⟨_, rfl⟩
  obtain ⟨d0, d1, d2⟩ := hdim h hh
  dsimp only
  split
  · left; exact ⟨_, rfl⟩
  rename_i hn
  have hn' : (setHeader g h).nextcur = cur.size := by
    by_contra hc; exact hn (fun e => hc e.symm)
  have hnn : 0 ≤ (setHeader g h).numPhi * (setHeader g h).numZ * (setHeader g h).numR :=
    mul_nonneg (mul_nonneg d0 d1) d2
  unfold Vec.zero
  rw [if_pos hnn, hn']
  dsimp only
  set g0 : MGrid K := { setHeader g h with
    b := fun _ => ⟨(setHeader g h).numPhi * (setHeader g h).numZ * (setHeader g h).numR, fun _ => 0⟩
    mgrid_mode := h.mode
    nextcur := cur.size } with hg0
  have key := fileLoop g0 f cur hcur d0 d1 d2 (fun c => rfl)
  set s := forRange 0 cur.size (fileCoil f cur) (g0, .ok ()) with hs
  rcases key with key | ⟨w, key⟩
  · rw [key.ok]
    dsimp only
    split
    · left; exact ⟨_, rfl⟩
    · right
      refine ⟨rfl, h, rfl, ?_, ?_, ?_⟩
      · have := key.same
        constructor <;> (dsimp only; rw [show s.1 = { g0 with b := s.1.b } by rw [← this]]; try rfl)
      · have := key.same
        dsimp only; rw [show s.1 = { g0 with b := s.1.b } by rw [← this]]
      · have := key.same
        have eP : s.1.numPhi = g0.numPhi := by rw [← this]
        have eZ : s.1.numZ = g0.numZ := by rw [← this]
        have eR : s.1.numR = g0.numR := by rw [← this]
        refine ⟨rfl, rfl, ?_, ?_⟩
        · intro c; dsimp only; rw [eP, eZ, eR]; exact key.size c
        · intro c k j i
          unfold node
          dsimp only; rw [eP, eZ, eR]; exact key.val c k j i
  · left
    rw [key]
    exact ⟨w, key⟩

/-- the pattern of the matching table: one row per current, one column per grid point, in all three
    components -/
structure TableShape (t : Table K) (n : Int) : Prop where
  dims : 0 ≤ t.numPhi ∧ 0 ≤ t.numZ ∧ 0 ≤ t.numR
  rows : ∀ c, (t.b c).rows = n
  cols : ∀ c, (t.b c).cols = t.numPhi * t.numZ * t.numR

/-- `LoadFields` on a table of matching shape succeeds and the object then holds `Σ I_m B_m`, whatever it held
    before. -/
theorem C36_fields_superposition (g : MGrid K) (t : Table K) (cur : Vec K) (hcur : 0 ≤ cur.size)
    (ht : TableShape t cur.size) :
    (loadFields g t cur).2 = .ok () ∧
      (loadFields g t cur).1.numR = t.numR ∧ (loadFields g t cur).1.numZ = t.numZ ∧
      (loadFields g t cur).1.numPhi = t.numPhi ∧ (loadFields g t cur).1.nfp = t.nfp ∧
      (loadFields g t cur).1.minR = t.minR ∧ (loadFields g t cur).1.maxR = t.maxR ∧
      (loadFields g t cur).1.minZ = t.minZ ∧ (loadFields g t cur).1.maxZ = t.maxZ ∧
      (loadFields g t cur).1.deltaR = delta t.minR t.maxR t.numR ∧
      (loadFields g t cur).1.deltaZ = delta t.minZ t.maxZ t.numZ ∧
      Holds (loadFields g t cur).1 cur.size
        (fun m c k j i => (t.b c).val m ((k * t.numZ + j) * t.numR + i)) cur.val := by
  have hnn : 0 ≤ t.numPhi * t.numZ * t.numR := mul_nonneg (mul_nonneg ht.dims.1 ht.dims.2.1) ht.dims.2.2
  have hloop : ∃ b, forRangeM 0 cur.size (fun i b => forRangeM 0 (t.numPhi * t.numZ * t.numR) (fun l b =>
        tableCell t cur i l b) b) (fun _ => (⟨t.numPhi * t.numZ * t.numR, fun _ => 0⟩ : Vec K)) = .ok b ∧
      Sized (t.numPhi * t.numZ * t.numR) b ∧
      ∀ c l, 0 ≤ l → l < t.numPhi * t.numZ * t.numR →
        (b c).val l = ∑ m ∈ Ico 0 cur.size, (t.b c).val m l * cur.val m := by
    set N := t.numPhi * t.numZ * t.numR with hN
    refine forRangeM_inv (lo := 0) (hi := cur.size) hcur _ (fun _ => (⟨N, fun _ => 0⟩ : Vec K))
      (fun (m : Int) (b : Comp → Vec K) => Sized N b ∧ ∀ c l, 0 ≤ l → l < N →
        (b c).val l = ∑ m ∈ Ico 0 m, (t.b c).val m l * cur.val m)
      ⟨fun c => rfl, fun c l _ _ => by simp⟩ ?_
    rintro m b hm0 hm1 ⟨hb1, hb2⟩
    obtain ⟨b', e, hA⟩ := forRangeM_inv (lo := 0) (hi := N) hnn (fun l b => tableCell t cur m l b) b
      (fun (l : Int) (b' : Comp → Vec K) => Added N b (fun c l => (t.b c).val m l * cur.val m) l b')
      ⟨hb1, fun c l h0 _ => by rw [if_neg (by omega), add_zero]⟩ (by
        intro l b1 hl0 hl1 hA
        obtain ⟨b', e, hs, hv⟩ := three_adds N b1 hA.1 l hl0 hl1 (fun c => (t.b c).val m l * cur.val m)
        refine ⟨b', ?_, added_step hA hs hv⟩
        have hg : ∀ c, (t.b c).get m l = .ok ((t.b c).val m l) := fun c =>
          Mat.get_ok _ _ _ ⟨⟨hm0, by rw [ht.rows]; exact hm1⟩, hl0, by rw [ht.cols]; exact hl1⟩
        unfold tableCell
        rw [Vec.get_ok _ _ hm0 hm1, hg, hg, hg]
        simp only [Outcome.bind_ok]
        exact e)
    refine ⟨b', e, hA.1, fun c l h0 h1 => ?_⟩
    rw [hA.2 c l h0 h1, if_pos h1, hb2 c l h0 h1, sum_Ico_int_succ hm0]
  obtain ⟨b, e, hs, hv⟩ := hloop
  have hzero : (Vec.zero (t.numPhi * t.numZ * t.numR) : Outcome (Vec K))
      = .ok ⟨t.numPhi * t.numZ * t.numR, fun _ => 0⟩ := by unfold Vec.zero; rw [if_pos hnn]
  have hrun : loadFields g t cur = ({ g with
      b := b, loaded := true, fixed := false
      nfp := t.nfp
      numR := t.numR
      minR := t.minR
      maxR := t.maxR
      deltaR := delta t.minR t.maxR t.numR
      numZ := t.numZ
      minZ := t.minZ
      maxZ := t.maxZ
      deltaZ := delta t.minZ t.maxZ t.numZ
      numPhi := t.numPhi
      nextcur := cur.size
      mgrid_mode := if t.normalize then "S" else "R" }, .ok ()) := by
    unfold loadFields
    rw [if_neg (by rw [ht.rows]; simp)]
    dsimp only
    rw [hzero]
    dsimp only
    rw [e]
  rw [hrun]
  refine ⟨rfl, rfl, rfl, rfl, rfl, rfl, rfl, rfl, rfl, rfl, rfl, rfl, rfl, hs, ?_⟩
  intro c k j i k0 k1 j0 j1 i0 i1
  obtain ⟨l0, l1⟩ := lin_bounds ⟨k0, k1⟩ ⟨j0, j1⟩ ⟨i0, i1⟩
  exact hv c _ l0 l1

/-- Loading twice the currents stores twice the field, loading the sum of two current sets the sum of the
    fields: the load is linear. -/
theorem C36_linear (g g' g'' : MGrid K) (n : Int) (B : Int → Comp → Int → Int → Int → K) (I J : Int → K)
    (a a' : K) (h : Holds g n B I) (h' : Holds g' n B J)
    (h'' : Holds g'' n B (fun m => a * I m + a' * J m))
    (e : g.numPhi = g''.numPhi ∧ g.numZ = g''.numZ ∧ g.numR = g''.numR)
    (e' : g'.numPhi = g''.numPhi ∧ g'.numZ = g''.numZ ∧ g'.numR = g''.numR)
    (c : Comp) (k j i : Int) (k0 : 0 ≤ k) (k1 : k < g''.numPhi) (j0 : 0 ≤ j) (j1 : j < g''.numZ) (i0 : 0 ≤ i)
    (i1 : i < g''.numR) : node g'' c k j i = a * node g c k j i + a' * node g' c k j i := by
  rw [h''.val c k j i k0 k1 j0 j1 i0 i1,
    h.val c k j i k0 (by rw [e.1]; exact k1) j0 (by rw [e.2.1]; exact j1) i0 (by rw [e.2.2]; exact i1),
    h'.val c k j i k0 (by rw [e'.1]; exact k1) j0 (by rw [e'.2.1]; exact j1) i0 (by rw [e'.2.2]; exact i1),
    mul_sum, mul_sum, ← sum_add_distrib]
  exact sum_congr rfl fun m _ => by ring

/-- A rejected `LoadFields` changes nothing. -/
theorem C36_fields_rejected_unchanged (g : MGrid K) (t : Table K) (cur : Vec K) (w : String)
    (h : (loadFields g t cur).2 = .status w) : (loadFields g t cur).1 = g := by
  unfold loadFields at h ⊢
  split
  · rfl
  · rename_i hc
    rw [if_neg hc] at h
    dsimp only at h
    split at h
    · split at h <;> cases h
    · cases h

/-- A `LoadFile` that fails before the header is complete changes nothing. Missing for the full claim: failures
    after the header, see `C36_failed_load_breaks_field`. -/
theorem C36_file_rejected_unchanged_partial (g : MGrid K) (f : File K) (cur : Vec K)
    (h : f.isThere = false ∨ f.readable = false ∨ f.opens = false ∨ f.header = none) :
    (∃ w, (loadFile g f cur).2 = .status w) ∧ (loadFile g f cur).1 = g := by
  unfold loadFile
  split
  · exact ⟨⟨_, rfl⟩, rfl⟩
  split
  · exact ⟨⟨_, rfl⟩, rfl⟩
  split
  · exact ⟨⟨_, rfl⟩, rfl⟩
  rename_i a b c
  rcases h with h | h | h | h
  · simp [h] at a
  · simp [h] at b
  · simp [h] at c
  · rw [h]; exact ⟨⟨_, rfl⟩, rfl⟩

/-! ### the hypotheses can be met, and where the claim fails -/

/-- two coil groups on a 2 by 3 by 2 grid -/
def demoTable : Table ℚ where
  nfp := 5
  numR := 2
  minR := 1
  maxR := 2
  numZ := 3
  minZ := -1
  maxZ := 1
  numPhi := 2
  normalize := true
  b := fun _ => ⟨2, 12, fun m l => 10 * m + l⟩

example : TableShape demoTable (Vec.ofList [3, 4] : Vec ℚ).size :=
  ⟨by decide, fun _ => rfl, fun _ => rfl⟩

example : node (loadFields MGrid.init demoTable (Vec.ofList [3, 4])).1 .p 1 2 0 = 3 * 10 + 4 * 20 := by
  decide +kernel

/-- a file with one coil group on a larger grid than `demoGrid` -/
def demoFile : File ℚ where
  isThere := true
  readable := true
  opens := true
  header := some ⟨1, 3, 1, 2, 4, -1, 1, 2, 1, "S"⟩
  field := fun _ _ => some ⟨2, fun _ => 4, fun _ _ => 3, fun i j k => 100 * i + 10 * j + k⟩
  closes := true

example : (loadFile demoGrid demoFile (Vec.ofList [2])).2 = .ok () ∧
    node (loadFile demoGrid demoFile (Vec.ofList [2])).1 .z 1 3 2 = 264 := by decide +kernel

/-- F19: a field is loaded and usable. A later `LoadFile` with the wrong number of currents is rejected, yet it
    has already replaced the grid sizes, and the object still claims to be loaded: an interpolation that worked
    before now reads behind the end of the array. -/
theorem C36_failed_load_breaks_field :
    (∃ v, (interpPoint demoGrid 2 1 2 1).bind (fun v => .ok (v .p)) = .ok v) ∧
    (loadFile demoGrid demoFile (Vec.ofList [2, 3])).2 = .status "number of currents" ∧
    (loadFile demoGrid demoFile (Vec.ofList [2, 3])).1.loaded = true ∧
    (interpPoint (loadFile demoGrid demoFile (Vec.ofList [2, 3])).1 2 1 2 1).bind (fun v => .ok (v .p))
      = .ub "vector index out of bounds" :=
  ⟨⟨11, by decide +kernel⟩, by decide +kernel, by decide +kernel, by decide +kernel⟩

/-- F19: likewise a file whose field variable is missing wipes the previous field, although it is rejected. -/
theorem C36_failed_load_wipes_field :
    (interpPoint demoGrid 2 1 2 1).bind (fun v => .ok (v .p)) = .ok 11 ∧
    (loadFile demoGrid { demoFile with field := fun _ _ => none } (Vec.ofList [2])).2
      = .status "missing variable" ∧
    (loadFile demoGrid { demoFile with field := fun _ _ => none } (Vec.ofList [2])).1.loaded = true ∧
    (interpPoint (loadFile demoGrid { demoFile with field := fun _ _ => none } (Vec.ofList [2])).1 2 1 2 1).bind
      (fun v => .ok (v .p)) = .ok 0 :=
  ⟨by decide +kernel, by decide +kernel, by decide +kernel, by decide +kernel⟩

/-- F31: `LoadFields` compares the number of currents with the `b_p` matrix only. A table whose `b_r` has fewer
    coil groups is read out of bounds. -/
theorem C36_unchecked_component :
    (loadFields MGrid.init { demoTable with b := fun c => match c with
        | .r => ⟨1, 12, fun m l => 10 * m + l⟩
        | c => demoTable.b c } (Vec.ofList [3, 4])).2 = .ub "matrix index out of bounds" := by decide +kernel

end Verif.Mgrid
