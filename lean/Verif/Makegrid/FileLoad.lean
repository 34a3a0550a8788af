import Verif.Makegrid.FileProps

/-!
# C106: loading the file of a response table is loading the table
-/
namespace Verif.Makegrid
open Verif Verif.Coils Verif.Mgrid

/-- the grid and the field of two providers agree -/
structure SameGrid (g h : MGrid ℝ) : Prop where
  nfp : g.nfp = h.nfp
  numR : g.numR = h.numR
  minR : g.minR = h.minR
  maxR : g.maxR = h.maxR
  deltaR : g.deltaR = h.deltaR
  numZ : g.numZ = h.numZ
  minZ : g.minZ = h.minZ
  maxZ : g.maxZ = h.maxZ
  deltaZ : g.deltaZ = h.deltaZ
  numPhi : g.numPhi = h.numPhi
  nextcur : g.nextcur = h.nextcur
  mode : g.mgrid_mode = h.mgrid_mode
  loaded : g.loaded = h.loaded
  fixed : g.fixed = h.fixed
  size : ∀ c, (g.b c).size = (h.b c).size
  val : ∀ c k j i, 0 ≤ k → k < g.numPhi → 0 ≤ j → j < g.numZ → 0 ≤ i → i < g.numR → node g c k j i = node h c k j i

/-- the response table with its parameters, as `LoadFields` takes it -/
def asTable (par : Params) (b : Comp → Mat ℝ) : Table ℝ where
  nfp := par.number_of_field_periods
  numR := par.number_of_r_grid_points
  minR := par.r_grid_minimum
  maxR := par.r_grid_maximum
  numZ := par.number_of_z_grid_points
  minZ := par.z_grid_minimum
  maxZ := par.z_grid_maximum
  numPhi := par.number_of_phi_grid_points
  normalize := par.normalize_by_currents
  b := b

/-- a file with all variables of the right shape is loaded -/
theorem loadFile_ok (g : MGrid ℝ) (f : File ℝ) (h : Header ℝ) (cur : Vec ℝ) (ht : f.isThere = true) (hre : f.readable = true) (ho : f.opens = true) (hh : f.header = some h) (hc : f.closes = true)
    (hn : h.nextcur = cur.size) (hcur : 0 ≤ cur.size) (hP : 0 ≤ h.kp) (hZ : 0 ≤ h.jz) (hR : 0 ≤ h.ir)
    (hf : ∀ m c, 0 ≤ m → m < cur.size → ∃ a, f.field m c = some a ∧ shapeOk a h.kp h.jz h.ir = true) :
    (loadFile g f cur).2 = .ok () ∧ (loadFile g f cur).1.mgrid_mode = h.mode ∧ (loadFile g f cur).1.nextcur = cur.size := by
  have hnn : 0 ≤ h.kp * h.jz * h.ir := mul_nonneg (mul_nonneg hP hZ) hR
  set g0 : MGrid ℝ := { setHeader g h with b := fun _ => ⟨h.kp * h.jz * h.ir, fun _ => 0⟩, mgrid_mode := h.mode } with hg0
  have key : FileInv g0 f cur cur.size (forRange 0 cur.size (fileCoil f cur) (g0, .ok ())) := by
    refine forRange_inv (lo := 0) (hi := cur.size) hcur (fileCoil f cur) (g0, .ok ()) (fun (m : Int) (s : MGrid ℝ × Outcome Unit) => FileInv g0 f cur m s) ?_ ?_
    · exact ⟨rfl, rfl, fun c => rfl, fun c k j i _ _ _ _ _ _ => by simp [hg0]⟩
    · intro m s m0 m1 hs
      rcases fileCoil_ok g0 f cur m s ⟨m0, m1⟩ hP hZ hR hs with h1 | ⟨w, h1⟩
      · exact h1
      · exfalso
        obtain ⟨ar, e1, s1⟩ := hf m .r m0 m1
        obtain ⟨ap, e2, s2⟩ := hf m .p m0 m1
        obtain ⟨az, e3, s3⟩ := hf m .z m0 m1
        have same := hs.same
        have eP : s.1.numPhi = h.kp := by have : s.1.numPhi = g0.numPhi := by rw [← same]
                                          exact this
        have eZ : s.1.numZ = h.jz := by have : s.1.numZ = g0.numZ := by rw [← same]
                                        exact this
        have eR : s.1.numR = h.ir := by have : s.1.numR = g0.numR := by rw [← same]
                                        exact this
        unfold fileCoil at h1
        rw [hs.ok] at h1
        dsimp only at h1
        rw [e1, e2, e3] at h1
        dsimp only at h1
        rw [eP, eZ, eR, s1, s2, s3] at h1
        simp only [Bool.and_self, if_true] at h1
        split at h1 <;> cases h1
  set s := forRange 0 cur.size (fileCoil f cur) (g0, .ok ()) with hs
  have run : loadFile g f cur = ({ s.1 with loaded := true, fixed := false }, .ok ()) := by
    unfold loadFile
    rw [ht, hre, ho, hh]
    simp only [Bool.not_true, Bool.false_eq_true, if_false]
    rw [if_neg (by rw [not_not]; exact hn.symm)]
    unfold Vec.zero
    rw [if_pos (show 0 ≤ (setHeader g h).numPhi * (setHeader g h).numZ * (setHeader g h).numR from hnn)]
    dsimp only
    have : (forRange 0 (setHeader g h).nextcur (fileCoil f cur) (({ setHeader g h with b := fun _ => ⟨(setHeader g h).numPhi * (setHeader g h).numZ * (setHeader g h).numR, fun _ => 0⟩, mgrid_mode := h.mode } : MGrid ℝ), Outcome.ok ())) = s := by
      rw [hs, hg0, ← hn]; rfl
    rw [this, key.ok]
    dsimp only
    rw [hc]
    simp
  have same := key.same
  rw [run]
  refine ⟨rfl, ?_, ?_⟩
  · show s.1.mgrid_mode = _
    have : s.1.mgrid_mode = g0.mgrid_mode := by rw [← same]
    exact this
  · show s.1.nextcur = _
    have : s.1.nextcur = g0.nextcur := by rw [← same]
    rw [this]; exact hn

/-- loading fields: the remaining members -/
theorem loadFields_rest (g : MGrid ℝ) (t : Table ℝ) (cur : Vec ℝ) (h : (loadFields g t cur).2 = .ok ()) :
    (loadFields g t cur).1.nextcur = cur.size ∧ (loadFields g t cur).1.mgrid_mode = (if t.normalize then "S" else "R") := by
  unfold loadFields at h ⊢
  split
  · rename_i hc; rw [if_pos hc] at h; cases h
  · rename_i hc
    rw [if_neg hc] at h
    dsimp only at h ⊢
    split at h
    · split at h
      · exact ⟨rfl, rfl⟩
      · cases h
      · cases h
    · cases h

theorem readInt_ok {f : Nc} {name : String} {n : Int} (h : HasInt f name n) : readInt f name = .ok n := by
  obtain ⟨v, h1, h2, h3, h4⟩ := h
  unfold readInt
  rw [h1]
  dsimp only
  rw [h3, h2, h4]
  rfl

theorem readDouble_ok {f : Nc} {name : String} {x : ℝ} (h : HasDouble f name x) : readDouble f name = .ok x := by
  obtain ⟨v, h1, h2, h3, h4⟩ := h
  unfold readDouble
  rw [h1]
  dsimp only
  rw [h3, h2, h4]
  rfl

theorem readMode_ok {f : Nc} {b : Bool} (h1 : f.dims "dim_00001" = some 1)
    (h : ∃ v, f.vars "mgrid_mode" = some v ∧ v.ty = .char ∧ v.dims = ["dim_00001"] ∧ v.data 0 = .c (if b then 'S' else 'R')) : readString f "mgrid_mode" = .ok (if b then "S" else "R") := by
  obtain ⟨v, e1, e2, e3, e4⟩ := h
  unfold readString
  rw [e1]
  dsimp only
  rw [e3]
  dsimp only
  rw [if_pos e2, h1]
  have : irange 0 ((some (1 : Int)).getD 0) = [0] := rfl
  rw [this]
  simp only [List.map_cons, List.map_nil, e4]
  cases b <;> decide

theorem readArray3_ok {par : Params} {n : Int} {cur : Vec ℝ} {b : Comp → Mat ℝ} {a : Option (Comp → Mat ℝ)} {f : Nc} (hf : Contains par n cur b a f) (junk : NcType → Int → ℝ) (name : String)
    (x : Int → ℝ) (ht : HasTable par f name x) : ∃ t, readArray3 junk f name = some t ∧
      shapeOk t par.number_of_phi_grid_points par.number_of_z_grid_points par.number_of_r_grid_points = true ∧
      ∀ ip iz ir, OnGrid par ip iz ir → t.val ip iz ir = x (flat par ip iz ir) := by
  obtain ⟨v, e1, e2, e3, e4⟩ := ht
  unfold readArray3
  rw [e1]
  dsimp only
  rw [e3]
  dsimp only
  rw [hf.rad, hf.zee, hf.phi]
  refine ⟨_, rfl, ?_, ?_⟩
  · simp [shapeOk]
  · intro ip iz ir h
    dsimp only
    rw [if_pos e2]
    have : (ip * (some par.number_of_z_grid_points).getD 0 + iz) * (some par.number_of_r_grid_points).getD 0 + ir = flat par ip iz ir := by
      simp only [Option.getD_some, flat]; ring
    rw [this, e4 ip iz ir h]
    rfl

/-- **C106** (round trip): the file written for a response table is read without error, and for all currents (as many as circuits) `LoadFile` of the file and `LoadFields` of the table both succeed and give
    the same grid and the same field, whatever the providers held before. -/
theorem C106_roundtrip (par : Params) (n : Int) (hn : 0 < n) (hb : n ≤ 2 ^ 31) (hr : 0 < par.number_of_r_grid_points) (hz : 0 < par.number_of_z_grid_points) (hp : 0 < par.number_of_phi_grid_points)
    (cur : Vec ℝ) (hcur : cur.size = n) (b : Comp → Mat ℝ) (a : Option (Comp → Mat ℝ)) (hfb : ∀ c, Fit par n (b c)) (hfa : ∀ t, a = some t → ∀ c, Fit par n (t c)) (junk : NcType → Int → ℝ) :
    ∃ f file, writeFile par cur b a = .ok f ∧ asFile junk f = .ok file ∧ ∀ (g g' : MGrid ℝ) (I : Vec ℝ), I.size = n →
      (loadFile g file I).2 = .ok () ∧ (loadFields g' (asTable par b) I).2 = .ok () ∧ SameGrid (loadFile g file I).1 (loadFields g' (asTable par b) I).1 := by
  obtain ⟨f, hw, hf⟩ := C106_contents par n hn hb hr hz hp cur hcur b a hfb hfa
  set hd : Header ℝ := ⟨par.number_of_field_periods, par.number_of_r_grid_points, par.r_grid_minimum, par.r_grid_maximum, par.number_of_z_grid_points, par.z_grid_minimum, par.z_grid_maximum,
    par.number_of_phi_grid_points, n, if par.normalize_by_currents then "S" else "R"⟩ with hhd
  have hread : readHeader f = .ok (some hd) := by
    unfold readHeader
    rw [readMode_ok hf.one hf.mode, readInt_ok hf.nfp, readInt_ok hf.ir, readDouble_ok hf.rmin, readDouble_ok hf.rmax, readInt_ok hf.jz, readDouble_ok hf.zmin, readDouble_ok hf.zmax, readInt_ok hf.kp,
      readInt_ok hf.nextcur]
    rfl
  set file : File ℝ := { isThere := true, readable := true, opens := true, header := some hd, field := fun i c => readArray3 junk f (tableName (bName c) i), closes := true } with hfile
  refine ⟨f, file, hw, by unfold asFile; rw [hread]; rfl, fun g g' I hI => ?_⟩
  have hfield : ∀ m c, 0 ≤ m → m < n → ∃ t, file.field m c = some t ∧ shapeOk t hd.kp hd.jz hd.ir = true ∧ ∀ ip iz ir, OnGrid par ip iz ir → t.val ip iz ir = (b c).val m (flat par ip iz ir) :=
    fun m c h0 h1 => readArray3_ok hf junk _ _ (hf.field c m h0 h1)
  obtain ⟨ok1, mode1, next1⟩ := loadFile_ok g file hd I rfl rfl rfl rfl rfl hI.symm (by omega) hp.le hz.le hr.le (fun m c h0 h1 => by
    obtain ⟨t, e, s, _⟩ := hfield m c h0 (by omega)
    exact ⟨t, e, s⟩)
  rcases C36_file_superposition g file I (by omega) (fun h e => by
      have : hd = h := by injection e
      subst this
      exact ⟨hp.le, hz.le, hr.le⟩) with ⟨w, hc⟩ | ⟨_, h, eh, hg, _, hold⟩
  · rw [ok1] at hc; cases hc
  have ehd : hd = h := by injection eh
  subst ehd
  have shape : TableShape (asTable par b) I.size := by
    refine ⟨⟨hp.le, hz.le, hr.le⟩, fun c => by rw [hI]; exact (hfb c).1, fun c => (hfb c).2⟩
  obtain ⟨ok2, k1, k2, k3, k4, k5, k6, k7, k8, k9, k10, hold2⟩ := C36_fields_superposition g' (asTable par b) I (by omega) shape
  obtain ⟨r1, r2⟩ := loadFields_rest g' (asTable par b) I ok2
  refine ⟨ok1, ok2, ?_⟩
  have nP : (loadFile g file I).1.numPhi = par.number_of_phi_grid_points := hg.numPhi
  have nZ : (loadFile g file I).1.numZ = par.number_of_z_grid_points := hg.numZ
  have nR : (loadFile g file I).1.numR = par.number_of_r_grid_points := hg.numR
  constructor
  · rw [hg.nfp, k4]; rfl
  · rw [nR, k1]; rfl
  · rw [hg.minR, k5]; rfl
  · rw [hg.maxR, k6]; rfl
  · rw [hg.dr, k9]; rfl
  · rw [nZ, k2]; rfl
  · rw [hg.minZ, k7]; rfl
  · rw [hg.maxZ, k8]; rfl
  · rw [hg.dz, k10]; rfl
  · rw [nP, k3]; rfl
  · rw [next1, r1]
  · rw [mode1, r2]; rfl
  · rw [hold.loaded, hold2.loaded]
  · rw [hold.fixed, hold2.fixed]
  · intro c
    rw [hold.size c, hold2.size c, nP, nZ, nR, k1, k2, k3]; rfl
  · intro c k j i p0 p1 z0 z1 r0 r1
    rw [hold.val c k j i p0 p1 z0 z1 r0 r1]
    rw [nP] at p1
    rw [nZ] at z1
    rw [nR] at r1
    rw [hold2.val c k j i p0 (by rw [k3]; exact p1) z0 (by rw [k2]; exact z1) r0 (by rw [k1]; exact r1)]
    refine Finset.sum_congr rfl fun m hm => ?_
    obtain ⟨m0, m1⟩ := Finset.mem_Ico.1 hm
    obtain ⟨t, e, _, ev⟩ := hfield m c m0 (by omega)
    unfold fileB
    rw [e]
    dsimp only
    rw [ev k j i ⟨p0, p1, z0, z1, r0, r1⟩]
    congr 2
    show flat par k j i = (k * par.number_of_z_grid_points + j) * par.number_of_r_grid_points + i
    unfold flat; ring

end Verif.Makegrid
