import Verif.Spec.BRun
import Verif.Props.Dos33Names
import Verif.Props.Dos33Lists
import Verif.Props.Assemble
import Verif.Props.Bsave
/-!
# C116: assembled programs run under DOS 3.3

`assemble` puts a BSAVE file on the disk.  What `BRUN` does with it: it finds the entry (C115), the sectors (C114) and loads the
memory image (C19).
-/
namespace Atr

/-! ### `BRUN` does one thing -/

theorem DosFinds33.unique {b : Bytes} {t n s s' : Nat} (h : DosFinds33 b t n s) (h' : DosFinds33 b t n s') : s = s' := by
  induction h with
  | here h1 h2 =>
    cases h' with
    | here _ _ => rfl
    | next h3 _ _ => omega
  | next h1 h2 _ ih =>
    cases h' with
    | here _ _ => omega
    | next _ _ h3 => exact ih h3

theorem DosByte33.unique {b : Bytes} {t k : Nat} {v v' : UInt8} (h : DosByte33 b t k v) (h' : DosByte33 b t k v') : v = v' := by
  obtain ⟨s, _, h1, h2⟩ := h
  obtain ⟨s', _, h1', h2'⟩ := h'
  rw [h1.unique h1'] at h2
  exact h2.symm.trans h2'

theorem DosWord33.unique {b : Bytes} {t k n n' : Nat} (h : DosWord33 b t k n) (h' : DosWord33 b t k n') : n = n' := by
  obtain ⟨l, g, h1, h2, h3⟩ := h
  obtain ⟨l', g', h1', h2', h3'⟩ := h'
  rw [h3, h3', h1.unique h1', h2.unique h2']

/-- memory and start address after `BRUN` are determined by the disk -/
theorem C116_unique {b : Bytes} {cs : List Nat} {x : Bytes} {mem m1 m2 : Nat → UInt8} {p1 p2 : Nat} (h1 : BRuns b cs x mem m1 p1) (h2 : BRuns b cs x mem m2 p2) :
    p1 = p2 ∧ ∀ a, m1 a = m2 a := by
  obtain ⟨p, len, a1, a2, a3, a4, a5, a6⟩ := h1
  obtain ⟨p', len', b1, b2, b3, b4, b5, b6⟩ := h2
  unfold DosEntry33 at a1 b1
  rw [a1] at b1
  injection b1 with b1
  subst b1
  have e1 := a3.unique b3
  have e2 := a4.unique b4
  subst e1
  subst e2
  refine ⟨rfl, fun a => ?_⟩
  by_cases h : ∃ k, k < len ∧ a = (p1 + k) % 65536
  · obtain ⟨k, hk, rfl⟩ := h
    exact (a5 k hk).unique (b5 k hk)
  · have hn : ∀ k, k < len → a ≠ (p1 + k) % 65536 := fun k hk e => h ⟨k, hk, e⟩
    rw [a6 a hn, b6 a hn]

/-! ### the entry -/

theorem nodup_same {f : DDirent → Bytes} : ∀ {l : List DDirent}, (l.map f).Nodup → ∀ {a b}, a ∈ l → b ∈ l → f a = f b → a = b := by
  intro l
  induction l with
  | nil => intro _ a b ha; cases ha
  | cons x l ih =>
    intro hn a b ha hb hab
    rw [List.map_cons, List.nodup_cons] at hn
    rcases List.mem_cons.mp ha with rfl | ha
    · rcases List.mem_cons.mp hb with rfl | hb
      · rfl
      · exact absurd (hab ▸ List.mem_map_of_mem hb) hn.1
    · rcases List.mem_cons.mp hb with hbx | hb
      · rw [← hbx, ← hab] at hn
        exact absurd (List.mem_map_of_mem ha) hn.1
      · exact ih hn.2 ha hb hab

/-- with plain names, DOS 3.3 finds every file that the program lists -/
theorem listed_entry {m : DImg} {cs ds} {n : Nat} (hm : Mounted33 m cs ds) (pd : PlainDisk33 m.bytes cs n) {d : DDirent} (hd : d ∈ m.files) :
    ∃ p, DosEntry33 m.bytes cs (dosName33 d.filename) p ∧ byteOf m.bytes (p + 2) % 128 = d.ftype ∧
      16 * byteOf m.bytes p + byteOf m.bytes (p + 1) = secOfTS d.track d.sector := by
  have hnd := mounted33_nodup hm
  obtain ⟨v, _, hn560, _⟩ := mounted_names hm
  obtain ⟨cs', v', _, _, _, _, hfiles⟩ := C77_opens _ _ hm.1
  have hcs : cs' = cs := v.chain.unique v'.chain
  subst hcs
  have hseen : dosSeen33 m.bytes cs' = catSeen33 m.bytes cs' := by rw [pd.toPlainCat33.dosSeen, pd.toPlainCat33.seen]
  have hin : ∀ p, p ∈ catSeen33 m.bytes cs' → byteOf m.bytes p ≠ 255 → ∃ d' ∈ m.files, d'.info = fileInfo33 m.bytes p := by
    intro p hp hl
    have : fileInfo33 m.bytes p ∈ m.files.map DDirent.info := by
      rw [hfiles]
      exact List.mem_map_of_mem (List.mem_filter.mpr ⟨hp, by simpa using hl⟩)
    obtain ⟨d', h1, h2⟩ := List.mem_map.mp this
    exact ⟨d', h1, h2⟩
  have : d.info ∈ (fileEntries33 m.bytes cs').map (fileInfo33 m.bytes) := by rw [← hfiles]; exact List.mem_map_of_mem hd
  obtain ⟨q, hq, hqi⟩ := List.mem_map.mp this
  obtain ⟨hq1, hq2⟩ := List.mem_filter.mp hq
  have hq2 : byteOf m.bytes q ≠ 255 := by simpa using hq2
  have hqn := pd.names q hq1 hq2
  have hqf : nameField33 m.bytes q = dosName33 d.filename := by
    rw [← plain_name hqn, hqi]
    rfl
  have hname : (fileInfo33 m.bytes q).name = d.filename := by rw [hqi]; rfl
  have htr : byteOf m.bytes q < 128 := by
    rcases v.good q hq1 with h | ⟨_, h, _⟩
    · exact absurd h hq2
    · rw [hn560] at h; omega
  obtain ⟨x, hx1, hx2, hx3, hx4⟩ := hqn
  have hxd : x = d.filename := by rw [← hname, plain_info hx1 hx2 hx3 hx4]
  have hsome : ((dosSeen33 m.bytes cs').find? fun p => decide (byteOf m.bytes p < 128) && decide (nameField33 m.bytes p = dosName33 d.filename)).isSome := by
    rw [List.find?_isSome]
    exact ⟨q, by rw [hseen]; exact hq1, by simp [htr, hqf]⟩
  obtain ⟨p, hp⟩ := Option.isSome_iff_exists.mp hsome
  have hpm := List.mem_of_find?_eq_some hp
  have hpp := List.find?_some hp
  simp only [Bool.and_eq_true, decide_eq_true_eq] at hpp
  rw [hseen] at hpm
  obtain ⟨d', g1, g2⟩ := hin p hpm (by omega)
  have g3 : d'.filename = d.filename := by
    have e1 : d'.filename = (fileInfo33 m.bytes p).name := congrArg FileInfo33.name g2
    rw [e1]
    exact plain_info hpp.2 (by rw [← hxd]; exact hx2) (by rw [← hxd]; exact hx3) (by rw [← hxd]; exact hx4)
  have g4 : d' = d := nodup_same hnd g1 hd g3
  subst g4
  exact ⟨p, hp, (congrArg FileInfo33.ftype g2).symm, (congrArg FileInfo33.first g2).symm⟩

/-! ### loading -/

theorem padded_getD {x : Bytes} {k : Nat} (hk : k < x.length) : (slice (padded33 x) (256 * (k / 256)) (256 * (k / 256) + 256)).getD (k % 256) 0 = x.getD k 0 := by
  rw [slice_getD (by omega), show 256 * (k / 256) + k % 256 = k by omega]
  unfold padded33
  rw [List.getD_eq_getElem?_getD, List.getElem?_append_left hk, List.getD_eq_getElem?_getD]

theorem word_enc {n : Nat} (h : n < 65536) : word (UInt8.ofNat n) (UInt8.ofNat (n / 256)) = n := by
  unfold word
  rw [toNat_ofNat, toNat_ofNat]
  omega

/-- memory after `body` was loaded to `start` -/
def loadAt (mem : Nat → UInt8) (start : Nat) (body : Bytes) : Nat → UInt8 :=
  fun p => if p < 65536 ∧ (p + (65536 - start)) % 65536 < body.length then body.getD ((p + (65536 - start)) % 65536) 0 else mem p

theorem loadAt_at {mem : Nat → UInt8} {start : Nat} {body : Bytes} (hs : start < 65536) (hb : body.length < 65536) {k : Nat} (hk : k < body.length) :
    loadAt mem start body ((start + k) % 65536) = body.getD k 0 := by
  unfold loadAt
  have : ((start + k) % 65536 + (65536 - start)) % 65536 = k := by omega
  rw [this, if_pos ⟨by omega, hk⟩]

theorem loadAt_other {mem : Nat → UInt8} {start : Nat} {body : Bytes} (hs : start < 65536) {a : Nat}
    (ha : ∀ k, k < body.length → a ≠ (start + k) % 65536) : loadAt mem start body a = mem a := by
  unfold loadAt
  rw [if_neg]
  rintro ⟨h1, h2⟩
  exact ha _ h2 (by omega)

/-- the entry of a file that was added with type B, and what DOS 3.3 reads of it -/
theorem brun_bytes {m m' : DImg} {cs ds} {n : Nat} {name x : Bytes} (hm : Mounted33 m cs ds) (pd : PlainDisk33 m.bytes cs n)
    (hc : norm33 name = name) (ha : ∀ c ∈ name, c < 0x80) (hnew : name ∉ m.names) (hw : DImg.writeFile name 4 x m = (.ok (), m')) :
    ∃ p d, DosEntry33 m'.bytes cs (dosName33 name) p ∧ byteOf m'.bytes (p + 2) % 128 = 4 ∧ d ∈ m'.files ∧ d.filename = name ∧
      16 * byteOf m'.bytes p + byteOf m'.bytes (p + 1) = secOfTS d.track d.sector ∧
      ∀ k, k < x.length → k < 31232 → DosByte33 m'.bytes (secOfTS d.track d.sector) k (x.getD k 0) := by
  obtain ⟨v, h272, hn, hcs, hfree, hlow⟩ := mounted_names hm
  obtain ⟨n', _, _, pd'⟩ := C115_plain_added hm.1 v h272 hn hcs hfree (by omega) (by omega) hc ha pd hlow hw
  obtain ⟨ds', L1, L2, k1, k2, k3, _⟩ := write33_ok hm (by omega) (by omega) (by rw [hc]; exact hnew) hw
  obtain ⟨d, hd, hdn, hfind⟩ := C114_partial hm hc (by omega) (by omega) hnew hw
  obtain ⟨p, hp1, hp2, hp3⟩ := listed_entry k1 pd' hd
  rw [hdn] at hp1
  have htype : d.ftype = 4 := by
    have hmem : (norm33 name, 4, Except.ok (padded33 x)) ∈ m'.listing := by
      rw [k3]
      simp
    unfold DImg.listing at hmem
    obtain ⟨d', g1, g2⟩ := List.mem_map.mp hmem
    have g3 : d'.filename = norm33 name := congrArg (·.1) g2
    have g4 : d' = d := nodup_same (mounted33_nodup k1) g1 hd (by rw [g3, hc, hdn])
    rw [← g4]
    exact congrArg (·.2.1) g2
  refine ⟨p, d, hp1, hp2.trans htype, hd, hdn, hp3, fun k hk hk2 => ?_⟩
  obtain ⟨s, h1, h2, h3⟩ := hfind (k / 256) (by omega) (by omega)
  exact ⟨s, h1, h2, by rw [h3, padded_getD hk]⟩

theorem bsave_length (start : Nat) (body : Bytes) : (enc16 start ++ enc16 body.length ++ body).length = body.length + 4 := by
  simp [enc16]

/-- a file with address, length and so many bytes is run by `BRUN` when it has been added with type B -/
theorem brun_added {m m' : DImg} {cs ds} {n : Nat} {name body : Bytes} {start : Nat} (hm : Mounted33 m cs ds) (pd : PlainDisk33 m.bytes cs n)
    (hc : norm33 name = name) (ha : ∀ c ∈ name, c < 0x80) (hnew : name ∉ m.names) (hs : start < 65536) (hb : body.length + 4 ≤ 31232)
    (hw : DImg.writeFile name 4 (enc16 start ++ enc16 body.length ++ body) m = (.ok (), m')) (mem : Nat → UInt8) :
    BRuns m'.bytes cs (dosName33 name) mem (loadAt mem start body) start := by
  obtain ⟨p, d, hp1, hp2, _, _, hp3, hbyte⟩ := brun_bytes hm pd hc ha hnew hw
  rw [bsave_length] at hbyte
  refine ⟨p, body.length, hp1, hp2, ?_, ?_, ?_, fun a h => loadAt_other hs h⟩
  · rw [hp3]
    exact ⟨_, _, hbyte 0 (by omega) (by omega), hbyte 1 (by omega) (by omega), (word_enc hs).symm⟩
  · rw [hp3]
    exact ⟨_, _, hbyte 2 (by omega) (by omega), hbyte 3 (by omega) (by omega), (word_enc (by omega)).symm⟩
  · intro k hk
    rw [hp3, loadAt_at hs (by omega) hk]
    have := hbyte (4 + k) (by omega) (by omega)
    rwa [show (enc16 start ++ enc16 body.length ++ body).getD (4 + k) 0 = body.getD k 0 from by
      rw [Nat.add_comm, List.getD_eq_getElem?_getD, List.getD_eq_getElem?_getD]
      rfl] at this

/-- if it has more than 31232 bytes, `BRUN` cannot load it -/
theorem brun_long {m m' : DImg} {cs ds} {n : Nat} {name body : Bytes} {start : Nat} (hm : Mounted33 m cs ds) (pd : PlainDisk33 m.bytes cs n)
    (hc : norm33 name = name) (ha : ∀ c ∈ name, c < 0x80) (hnew : name ∉ m.names) (hb : 31232 < body.length + 4) (hb2 : body.length < 65536)
    (hw : DImg.writeFile name 4 (enc16 start ++ enc16 body.length ++ body) m = (.ok (), m')) (mem mem' : Nat → UInt8) (pc : Nat) :
    ¬ BRuns m'.bytes cs (dosName33 name) mem mem' pc := by
  rintro ⟨q, len, h1, h2, h3, h4, h5, _⟩
  obtain ⟨p, d, hp1, hp2, hd, hdn, hp3, hbyte⟩ := brun_bytes hm pd hc ha hnew hw
  rw [bsave_length] at hbyte
  unfold DosEntry33 at h1 hp1
  rw [hp1] at h1
  injection h1 with h1
  subst h1
  rw [hp3] at h4 h5
  have hlen : len = body.length :=
    h4.unique ⟨_, _, hbyte 2 (by omega) (by omega), hbyte 3 (by omega) (by omega), (word_enc hb2).symm⟩
  obtain ⟨s, _, hs, _⟩ := h5 (body.length - 1) (by omega)
  obtain ⟨_, d', g1, g2, g3⟩ := C114_refuted hm hc (by omega) (by omega) hnew hw (by rw [bsave_length]; exact hb)
  obtain ⟨_, _, _, k1, _⟩ := write33_ok hm (by omega) (by omega) (by rw [hc]; exact hnew) hw
  rw [nodup_same (mounted33_nodup k1) g1 hd (by rw [g2, hdn])] at g3
  exact g3 _ s (by omega) hs

/-! ### the property -/

/-- **C116, what holds.** A program of segments in the addresses `lo` to `hi` that was added as a BSAVE file to a volume with plain
names: `BRUN` puts every segment at its addresses (where they overlap the last one counts), and starts at `lo`, or with a jump to
the run address that was asked for.  In between the segments memory becomes 0.  Before the first and behind the last segment memory
is left alone, but for the jump in the three bytes before `lo`. -/
theorem C116_partial {m m' : DImg} {cs ds} {n : Nat} {name x : Bytes} {segs : List Seg} {run : Option Nat} {lo hi : Nat} (hm : Mounted33 m cs ds)
    (pd : PlainDisk33 m.bytes cs n) (hc : norm33 name = name) (ha : ∀ c ∈ name, c < 0x80) (hnew : name ∉ m.names) (he : Extent segs lo hi)
    (h3 : 3 ≤ lo) (hhi : hi ≤ 65536) (ho : ∀ s ∈ segs, s.origin < 65536) (hlen : x.length ≤ 31232) (hx : getBsave segs run = .ok x)
    (hw : DImg.writeFile name 4 x m = (.ok (), m')) (mem : Nat → UInt8) :
    ∃ mem' pc, BRuns m'.bytes cs (dosName33 name) mem mem' pc ∧ (∀ a, lo ≤ a → a < hi → mem' a = memAt segs a) ∧
      (∀ a, a + 3 < lo ∨ hi ≤ a → mem' a = mem a) ∧
      ((run = none ∨ run = some 0 ∨ run = some lo) ∧ pc = lo ∧ (∀ a, a < lo → mem' a = mem a) ∨
       ∃ r, run = some r ∧ (∃ s ∈ segs, s.Covers r) ∧ decode6502 mem' pc = some (.jmp r, 3)) := by
  have hlo : lo < 65536 := by
    obtain ⟨s, h1, h2⟩ := he.lowHit
    have := ho s h1
    omega
  have hlohi : lo ≤ hi := by
    obtain ⟨s, h1, h2⟩ := he.highHit
    have := he.low s h1
    omega
  have hml := memImage_length segs lo hi
  have hmem : ∀ a, lo ≤ a → a < hi → (memImage segs lo hi).getD (a - lo) 0 = memAt segs a := by
    intro a h1 h2
    unfold memImage
    rw [List.getD_eq_getElem?_getD, List.getElem?_map, List.getElem?_range (by omega), Option.map_some, show lo + (a - lo) = a by omega]
    rfl
  by_cases hr : run = none ∨ run = some 0 ∨ run = some lo
  · rw [C19_plain he ho hr] at hx
    injection hx with hx
    subst hx
    generalize memImage segs lo hi = body at hml hmem hw hlen
    rw [← hml] at hw hlen
    have hl : body.length + 4 ≤ 31232 := by simpa [enc16] using hlen
    refine ⟨_, _, brun_added hm pd hc ha hnew hlo hl hw mem, ?_, ?_, Or.inl ⟨hr, rfl, ?_⟩⟩
    · intro a h1 h2
      have := loadAt_at (mem := mem) hlo (show body.length < 65536 by omega) (k := a - lo) (by omega)
      rw [show (lo + (a - lo)) % 65536 = a by omega] at this
      rw [this, hmem a h1 h2]
    · intro a h
      exact loadAt_other hlo (fun k hk => by omega)
    · intro a h
      exact loadAt_other hlo (fun k hk => by omega)
  · match run, hr, hx with
    | none, hr, _ => exact absurd (Or.inl rfl) hr
    | some r, hr, hx =>
      have h0 : r ≠ 0 := fun h => hr (by rw [h]; exact Or.inr (Or.inl rfl))
      have hl : r ≠ lo := fun h => hr (by rw [h]; exact Or.inr (Or.inr rfl))
      by_cases hcov : ∃ s ∈ segs, s.Covers r
      · rw [C19_jump he ho h3 h0 hl hcov, List.append_assoc] at hx
        injection hx with hx
        subst hx
        have hr16 : r < 65536 := by
          obtain ⟨s, h1, h2⟩ := hcov
          have := he.high s h1
          have := h2.2
          omega
        have hbl : ([0x4c, UInt8.ofNat r, UInt8.ofNat (r / 256)] ++ memImage segs lo hi).length = hi - lo + 3 := by
          rw [List.length_append, hml]
          simp
          omega
        have hget : ∀ k, ([0x4c, UInt8.ofNat r, UInt8.ofNat (r / 256)] ++ memImage segs lo hi).getD (k + 3) 0 = (memImage segs lo hi).getD k 0 := fun _ => rfl
        have g0 : ([0x4c, UInt8.ofNat r, UInt8.ofNat (r / 256)] ++ memImage segs lo hi).getD 0 0 = 0x4c := rfl
        have g1 : ([0x4c, UInt8.ofNat r, UInt8.ofNat (r / 256)] ++ memImage segs lo hi).getD 1 0 = UInt8.ofNat r := rfl
        have g2 : ([0x4c, UInt8.ofNat r, UInt8.ofNat (r / 256)] ++ memImage segs lo hi).getD 2 0 = UInt8.ofNat (r / 256) := rfl
        generalize [0x4c, UInt8.ofNat r, UInt8.ofNat (r / 256)] ++ memImage segs lo hi = body at hbl hget g0 g1 g2 hw hlen
        rw [← hbl] at hw hlen
        have hb4 : body.length + 4 ≤ 31232 := by simpa [enc16] using hlen
        have hst : lo - 3 < 65536 := by omega
        have hat := fun k hk => loadAt_at (mem := mem) hst (show body.length < 65536 by omega) (k := k) hk
        refine ⟨_, _, brun_added hm pd hc ha hnew hst hb4 hw mem, ?_, ?_, Or.inr ⟨r, rfl, hcov, ?_⟩⟩
        · intro a h1 h2
          have := hat (a - lo + 3) (by omega)
          rw [show (lo - 3 + (a - lo + 3)) % 65536 = a by omega] at this
          rw [this, hget, hmem a h1 h2]
        · intro a h
          exact loadAt_other hst (fun k hk => by omega)
        · have e0 := hat 0 (by omega)
          have e1 := hat 1 (by omega)
          have e2 := hat 2 (by omega)
          rw [Nat.add_zero, show (lo - 3) % 65536 = lo - 3 by omega, g0] at e0
          rw [g1] at e1
          rw [g2] at e2
          unfold decode6502
          rw [e0, e1, e2]
          exact Eq.trans (b := some (.jmp (word (UInt8.ofNat r) (UInt8.ofNat (r / 256))), 3)) rfl (by rw [word_enc hr16])
      · rw [C19_bad_run he ho h0 hl (fun s hs hcv => hcov ⟨s, hs, hcv⟩)] at hx
        cases hx

/-- **C116 (refuted), long programs.** A program whose file has more than 31232 bytes cannot be run: DOS 3.3 does not find the
sectors from 122 on. -/
theorem C116_refuted_long {m m' : DImg} {cs ds} {n : Nat} {name x : Bytes} {segs : List Seg} {run : Option Nat} {lo hi : Nat} (hm : Mounted33 m cs ds)
    (pd : PlainDisk33 m.bytes cs n) (hc : norm33 name = name) (ha : ∀ c ∈ name, c < 0x80) (hnew : name ∉ m.names) (he : Extent segs lo hi)
    (h3 : 3 ≤ lo) (hhi : hi < lo + 65533) (ho : ∀ s ∈ segs, s.origin < 65536) (hlen : 31232 < x.length) (hx : getBsave segs run = .ok x)
    (hw : DImg.writeFile name 4 x m = (.ok (), m')) (mem mem' : Nat → UInt8) (pc : Nat) : ¬ BRuns m'.bytes cs (dosName33 name) mem mem' pc := by
  have hml := memImage_length segs lo hi
  by_cases hr : run = none ∨ run = some 0 ∨ run = some lo
  · rw [C19_plain he ho hr] at hx
    injection hx with hx
    subst hx
    generalize memImage segs lo hi = body at hml hw hlen
    rw [← hml] at hw hlen
    rw [bsave_length] at hlen
    exact brun_long hm pd hc ha hnew hlen (by omega) hw mem mem' pc
  · match run, hr, hx with
    | none, hr, _ => exact absurd (Or.inl rfl) hr
    | some r, hr, hx =>
      have h0 : r ≠ 0 := fun h => hr (by rw [h]; exact Or.inr (Or.inl rfl))
      have hl : r ≠ lo := fun h => hr (by rw [h]; exact Or.inr (Or.inr rfl))
      by_cases hcov : ∃ s ∈ segs, s.Covers r
      · rw [C19_jump he ho h3 h0 hl hcov, List.append_assoc] at hx
        injection hx with hx
        subst hx
        have hbl : ([0x4c, UInt8.ofNat r, UInt8.ofNat (r / 256)] ++ memImage segs lo hi).length = hi - lo + 3 := by
          rw [List.length_append, hml]
          simp
          omega
        generalize [0x4c, UInt8.ofNat r, UInt8.ofNat (r / 256)] ++ memImage segs lo hi = body at hbl hw hlen
        rw [← hbl] at hw hlen
        rw [bsave_length] at hlen
        exact brun_long hm pd hc ha hnew hlen (by omega) hw mem mem' pc
      · rw [C19_bad_run he ho h0 hl (fun s hs hcv => hcov ⟨s, hs, hcv⟩)] at hx
        cases hx

/-- a program of 31240 bytes is stored on a blank disk without an error, and cannot be run -/
example (d : Bytes) (hd : d.length = 31240) : ∃ x m', getBsave [⟨0x2000, d⟩] none = .ok x ∧
    DImg.writeFile [0x54] 4 x (mount33 blank33 []) = (.ok (), m') ∧
    ∀ mem mem' pc, ¬ BRuns m'.bytes catBlank33 (dosName33 [0x54]) mem mem' pc := by
  have he : Extent [⟨0x2000, d⟩] 0x2000 39432 :=
    ⟨fun s hs => by cases List.mem_singleton.mp hs; exact Nat.le_refl _, ⟨_, List.mem_singleton.mpr rfl, rfl⟩,
      fun s hs => by cases List.mem_singleton.mp hs; show 0x2000 + d.length ≤ _; omega, ⟨_, List.mem_singleton.mpr rfl, by show 0x2000 + d.length = _; omega⟩⟩
  have ho : ∀ s ∈ [(⟨0x2000, d⟩ : Seg)], s.origin < 65536 := fun s hs => by cases List.mem_singleton.mp hs; show 0x2000 < 65536; omega
  have hx := C19_plain he ho (runAddr := none) (.inl rfl)
  have hl : (enc16 0x2000 ++ enc16 (39432 - 0x2000) ++ memImage [⟨0x2000, d⟩] 0x2000 39432).length = 31244 := by
    have := memImage_length [⟨0x2000, d⟩] 0x2000 39432
    rw [List.length_append, this]; simp [enc16]
  generalize enc16 0x2000 ++ enc16 (39432 - 0x2000) ++ memImage [⟨0x2000, d⟩] 0x2000 39432 = x at hx hl
  have hm0 := mounted_blank33
  have hb0 : (mount33 blank33 []).bytes = blank33 := mount33_bytes _ _
  have hp0 := template33_pool blank33_template
  have hok := (C10_write_succeeds_iff (name := [0x54]) (data := x) (ftype := 4) hm0 (by omega) (by omega)
    (fun hx => nomatch hx)).mpr ⟨(fun h => by rw [h] at hl; exact absurd hl (by decide)), by unfold Ascii33; decide, by decide, by rw [hb0, hp0, hl]; decide⟩
  have pc0 : PlainCat33 (mount33 blank33 []).bytes catBlank33 0 := by rw [hb0]; exact plain_blank
  have hn0 : (mount33 blank33 []).names = [] := rfl
  clear hb0 hp0
  generalize mount33 blank33 [] = m at hm0 hok pc0 hn0 ⊢
  have pd0 : PlainDisk33 m.bytes catBlank33 0 :=
    ⟨pc0, by rw [pc0.seen]; exact (fun p hp => nomatch hp), by rw [pc0.seen]; exact (fun p hp => nomatch hp)⟩
  generalize hw : DImg.writeFile [0x54] 4 x m = r at hok
  obtain ⟨r, m'⟩ := r
  have hok : r = .ok () := hok
  subst hok
  exact ⟨x, m', hx, hw, C116_refuted_long hm0 pd0 (by decide) (by decide) (by rw [hn0]; exact fun h => nomatch h) he (by decide) (by decide)
    ho (by omega) hx hw⟩

/-- **C116 (refuted), gaps.** What was in memory between two segments is lost. -/
theorem C116_refuted_gap {m m' : DImg} {cs ds} {n : Nat} {name x : Bytes} {segs : List Seg} {run : Option Nat} {lo hi a : Nat} (hm : Mounted33 m cs ds)
    (pd : PlainDisk33 m.bytes cs n) (hc : norm33 name = name) (ha : ∀ c ∈ name, c < 0x80) (hnew : name ∉ m.names) (he : Extent segs lo hi)
    (h3 : 3 ≤ lo) (hhi : hi ≤ 65536) (ho : ∀ s ∈ segs, s.origin < 65536) (hlen : x.length ≤ 31232) (hx : getBsave segs run = .ok x)
    (hw : DImg.writeFile name 4 x m = (.ok (), m')) (h1 : lo ≤ a) (h2 : a < hi) (hgap : ∀ s ∈ segs, ¬ s.Covers a) {mem mem' : Nat → UInt8} {pc : Nat}
    (hr : BRuns m'.bytes cs (dosName33 name) mem mem' pc) : mem' a = 0 := by
  obtain ⟨mem1, pc1, g1, g2, _⟩ := C116_partial hm pd hc ha hnew he h3 hhi ho hlen hx hw mem
  rw [(C116_unique hr g1).2 a, g2 a h1 h2]
  unfold memAt
  have : segs.reverse.find? (fun s => s.origin ≤ a && a < s.origin + s.data.length) = none := by
    rw [List.find?_eq_none]
    intro s hs hcv
    simp only [Bool.and_eq_true, decide_eq_true_eq] at hcv
    exact hgap s (List.mem_reverse.mp hs) hcv
  rw [this]

/-! ### the command -/

/-- what `save_file` has written, and to which volume -/
theorem saved33 {m m' : DImg} {cs ds} {n : Nat} {o : Opts} {name x : Bytes} (hm : Mounted33 m cs ds) (pd : PlainDisk33 m.bytes cs n)
    (h : saveFile (dos33Driver 'B') o name x m = (.ok true, m')) :
    ∃ m1 ds1, Mounted33 m1 cs ds1 ∧ PlainDisk33 m1.bytes cs n ∧ name ∉ m1.names ∧ DImg.writeFile name 4 x m1 = (.ok (), m') := by
  have fin : ∀ m1, finishSave (dos33Driver 'B') o name x m1 = (.ok true, m') → DImg.writeFile name 4 x m1 = (.ok (), m') := by
    intro m1 h
    unfold finishSave at h
    split at h
    · cases h
    · rw [show (dos33Driver 'B').write name x m1 = DImg.writeFile name 4 x m1 from rfl] at h
      cases hw : DImg.writeFile name 4 x m1 with
      | mk r m2 =>
        rw [hw] at h
        cases r with
        | error e => cases h
        | ok u => cases h; rfl
  unfold saveFile at h
  by_cases hin : name ∈ m.names
  · obtain ⟨m1, ds1, d1, d2, _, d3, _⟩ := C12_delete hm hin
    have hfind : (dos33Driver 'B').find m name = .ok () := by
      obtain ⟨d, hd, he⟩ := List.mem_map.mp hin
      show (m.findDirent name).map _ = _
      unfold DImg.findDirent
      cases hf : m.files.find? (fun d => d.filename == name) with
      | none =>
        rw [List.find?_eq_none] at hf
        have := hf d hd
        simp [he] at this
      | some d => rfl
    rw [hfind] at h
    simp only at h
    split at h
    · rw [show (dos33Driver 'B').delete name m = (.ok (), m1) from d1] at h
      obtain ⟨v, h272, hn, _⟩ := mounted_names hm
      exact ⟨m1, ds1, d2, C115_plain_removed hm.1 v h272 hn pd d1, d3, fin m1 h⟩
    · cases h
  · have hfind : (dos33Driver 'B').find m name = .error .fileNotFound := by
      show (m.findDirent name).map _ = _
      rw [(find33_missing hin).1]
      rfl
    rw [hfind] at h
    exact ⟨m, ds, hm, pd, hin, fin m h⟩

/-- **C116, the command.** `assemble` on a DOS 3.3 volume with plain names, with an output name that is new or with `--force`. -/
theorem C116_assemble {cs b M} {n : Nat} {o : Opts} {output : Bytes} {segs : List Seg} {run : Option Nat} {x : Bytes} {lo hi : Nat} (hh : Holds33 cs b M)
    (pd : PlainDisk33 b cs n) (hdry : o.dryRun = false) (hnew : output ∉ M.keys ∨ o.force = true) (hc : norm33 output = output)
    (ha : ∀ c ∈ output, c < 0x80) (hk : exeKind output ≠ some .xex) (hx : getBsave segs run = .ok x) (he : Extent segs lo hi) (h3 : 3 ≤ lo)
    (hhi : hi ≤ 65536) (ho : ∀ s ∈ segs, s.origin < 65536) (hlen : x.length ≤ 31232)
    (hok : (runAssemble (dos33Driver 'B') o .bsave output segs run b).1 = .ok ()) (mem : Nat → UInt8) :
    ∃ mem' pc, BRuns (runAssemble (dos33Driver 'B') o .bsave output segs run b).2 cs (dosName33 output) mem mem' pc ∧
      (∀ a, lo ≤ a → a < hi → mem' a = memAt segs a) ∧ (∀ a, a + 3 < lo ∨ hi ≤ a → mem' a = mem a) ∧
      ((run = none ∨ run = some 0 ∨ run = some lo) ∧ pc = lo ∧ (∀ a, a < lo → mem' a = mem a) ∨
       ∃ r, run = some r ∧ (∃ s ∈ segs, s.Covers r) ∧ decode6502 mem' pc = some (.jmp r, 3)) := by
  have hce : createExecutable .bsave output segs run = .ok x := by
    unfold createExecutable
    cases he : exeKind output with
    | none => exact hx
    | some k => cases k with
      | bsave => exact hx
      | xex => exact absurd he hk
  obtain ⟨m, ds, h1, h2, h4, h5⟩ := hh
  have r : Rep33 cs m M := ⟨ds, h2, h5⟩
  subst h4
  unfold runAssemble at hok ⊢
  rw [show (dos33Driver 'B').load m.bytes = .ok m from h1] at hok ⊢
  simp only [hce] at hok ⊢
  have hnf : ∀ m', saveFile (dos33Driver 'B') o output x m ≠ (.ok false, m') := by
    intro m' hs
    unfold saveFile at hs
    have fin : ∀ m1, finishSave (dos33Driver 'B') o output x m1 ≠ (.ok false, m') := by
      intro m1 hf
      unfold finishSave at hf
      rw [if_neg (by simp [hdry])] at hf
      split at hf <;> cases hf
    split at hs
    · exact fin _ hs
    · cases hs
    · rename_i hf
      rcases hnew with hn | hfo
      · rw [show (dos33Driver 'B').find m output = _ from (sim33 (t := 'B') (by decide) cs).find_not r hn] at hf
        cases hf
      · rw [if_pos hfo] at hs
        split at hs
        · exact fin _ hs
        · cases hs
        · exact fin _ hs
  cases hs : saveFile (dos33Driver 'B') o output x m with
  | mk q m' =>
    rw [hs] at hok
    cases q with
    | error e => cases hok
    | ok c =>
      cases c with
      | false => exact absurd hs (hnf m')
      | true =>
        obtain ⟨m1, ds1, g1, g2, g3, g4⟩ := saved33 h2 pd hs
        exact C116_partial g1 g2 hc ha g3 he h3 hhi ho hlen hx g4 mem

/-- two segments with a gap of two bytes, assembled to `T.BIN` on a blank disk with the run address 0x2004 and run: the bytes are in
memory, the gap holds zeros, and the first instruction is a jump to 0x2004 -/
example (mem : Nat → UInt8) : ∃ mem' pc, BRuns (runAssemble (dos33Driver 'B') {} .bsave [0x54, 0x2e, 0x42, 0x49, 0x4e] [⟨0x2000, [1, 2]⟩, ⟨0x2004, [3]⟩]
      (some 0x2004) blank33).2 catBlank33 (dosName33 [0x54, 0x2e, 0x42, 0x49, 0x4e]) mem mem' pc ∧
    (mem' 0x2000, mem' 0x2001, mem' 0x2002, mem' 0x2003, mem' 0x2004) = (1, 2, 0, 0, 3) ∧ mem' 0x2005 = mem 0x2005 ∧
    decode6502 mem' pc = some (.jmp 0x2004, 3) := by
  have hx : getBsave [⟨0x2000, [1, 2]⟩, ⟨0x2004, [3]⟩] (some 0x2004) = .ok [0xfd, 0x1f, 8, 0, 0x4c, 0x04, 0x20, 1, 2, 0, 0, 3] := by decide +kernel
  have hf : Fits33 [0x54, 0x2e, 0x42, 0x49, 0x4e] [0xfd, 0x1f, 8, 0, 0x4c, 0x04, 0x20, 1, 2, 0, 0, 3] := ⟨by decide, by unfold Ascii33; decide, by decide⟩
  have hk : exeKind [0x54, 0x2e, 0x42, 0x49, 0x4e] ≠ some .xex := by decide
  have hok := C64_succeeds33 (o := {}) holds_blank33 rfl (by simp [FMap.keys]) hf (by decide) hk hx (by rw [template33_pool blank33_template]; decide)
  have hh := holds_blank33
  have pc0 := plain_blank
  generalize blank33 = b at hok hh pc0 ⊢
  have pd0 : PlainDisk33 b catBlank33 0 :=
    ⟨pc0, by rw [pc0.seen]; exact (fun p hp => nomatch hp), by rw [pc0.seen]; exact (fun p hp => nomatch hp)⟩
  obtain ⟨mem', pc, h1, h2, h3, h4⟩ := C116_assemble (o := {}) (lo := 0x2000) (hi := 0x2005) hh pd0 rfl (.inl (by simp [FMap.keys])) hf.1
    (by decide) hk hx ⟨by decide, by decide, by decide, by decide⟩ (by decide) (by decide) (by decide) (by decide) hok mem
  refine ⟨mem', pc, h1, ?_, h3 _ (.inr (by decide)), ?_⟩
  · rw [h2 _ (by decide) (by decide), h2 _ (by decide) (by decide), h2 _ (by decide) (by decide), h2 _ (by decide) (by decide),
      h2 _ (by decide) (by decide)]
    rfl
  · rcases h4 with ⟨h5 | h5 | h5, _⟩ | ⟨r, h5, _, h6⟩
    · cases h5
    · cases h5
    · cases h5
    · cases h5; exact h6

end Atr
