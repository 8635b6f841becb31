import Verif.Props.Dos33Cli
import Verif.Props.AtariBoot
/-!
# C72: DOS 3.3 file operations change no sector in use

For every image of the right size, consistent or not, every file operation and every outcome: a sector that the VTOC does not
offer and that belongs neither to the VTOC nor to the catalog keeps its bytes.
-/
namespace Atr

/-- file operations on a DOS 3.3 image -/
inductive Op33
  | write (name : Bytes) (ftype : Nat) (data : Bytes)
  | delete (name : Bytes)
  | shred (fill : Nat)

/-- run an operation; the state is the one left behind, whether or not an exception is raised -/
def Op33.run : Op33 → Proc DImg Unit
  | .write name ftype data => DImg.writeFile name ftype data
  | .delete name => DImg.deleteFile name
  | .shred fill => DImg.shred fill

/-- sector `x` is reached from sector `s` by following the links (bytes 1 and 2) up to a zero link -/
inductive Linked33 (b : Bytes) : Nat → Nat → Prop
  | here (s : Nat) : Linked33 b s s
  | next {s x : Nat} (h : linkOf (sec33 b s) ≠ 0) (h1 : Linked33 b (linkOf (sec33 b s)) x) : Linked33 b s x

/-- a sector that is neither offered by the VTOC, nor the VTOC, nor in the catalog -/
def InUse33 (m : DImg) (s : Nat) : Prop := s ≠ 272 ∧ ¬ IsFree33 m.bytes s ∧ ¬ Linked33 m.bytes m.firstDir s

/-- same length, and the sectors of `P` keep their bytes -/
structure Keeps33 (P : Nat → Prop) (b b' : Bytes) : Prop where
  len : b'.length = b.length
  secs : ∀ s, P s → sec33 b' s = sec33 b s

theorem Keeps33.refl (P : Nat → Prop) (b : Bytes) : Keeps33 P b b := ⟨rfl, fun _ _ => rfl⟩
theorem Keeps33.trans {P : Nat → Prop} {a b c : Bytes} (h1 : Keeps33 P a b) (h2 : Keeps33 P b c) : Keeps33 P a c :=
  ⟨h2.len.trans h1.len, fun s hs => (h2.secs s hs).trans (h1.secs s hs)⟩

theorem clip_keeps33 {P : Nat → Prop} {b v : Bytes} {t : Nat} (hv : v.length = min (256 * t + 256) b.length - min (256 * t) b.length)
    (ht : ¬ P t) : Keeps33 P b (splice b (256 * t) v) := by
  refine ⟨length_splice_clipped _ _ _ _ hv, fun s hs => ?_⟩
  have hne : s ≠ t := fun h => ht (h ▸ hs)
  by_cases hi : 256 * t ≤ b.length
  · exact slice_splice_disjoint _ _ _ _ _ (by omega) (by omega)
  · have : v = [] := List.length_eq_zero_iff.mp (by omega)
    rw [this, splice_nil]

theorem writeSectors_keeps33 {P : Nat → Prop} : ∀ (ws : List WSector) {m m' : DImg} {r}, (∀ w ∈ ws, ¬ P w.num) →
    DImg.writeSectors ws m = (r, m') → Keeps33 P m.bytes m'.bytes := by
  intro ws
  induction ws with
  | nil => intro m m' r _ h; simp only [DImg.writeSectors] at h; injection h with _ h; subst h; exact Keeps33.refl _ _
  | cons w ws ih =>
    intro m m' r hw h
    simp only [DImg.writeSectors] at h
    split at h
    · injection h with _ h; subst h; exact Keeps33.refl _ _
    · cases ha : assignSlice m.bytes (256 * w.num) (256 * w.num + 256) w.data with
      | error e => rw [ha] at h; injection h with _ h; subst h; exact Keeps33.refl _ _
      | ok b1 =>
        rw [ha] at h
        have k1 : Keeps33 P m.bytes b1 := by
          unfold assignSlice at ha
          simp only at ha
          split at ha
          · rename_i hn
            injection ha with ha; subst ha
            exact clip_keeps33 hn (hw w (by simp))
          · split at ha
            · injection ha with ha; subst ha
              exact clip_keeps33 (by rw [List.length_replicate]) (hw w (by simp))
            · cases ha
        exact k1.trans (ih (m := { m with bytes := b1 }) (fun x hx => hw x (by simp [hx])) h)

theorem shredLoop_keeps33 {P : Nat → Prop} {fill : UInt8} {map : List Bool} (hm : ∀ s, map[s]? = some true → ¬ P s) :
    ∀ (is : List Nat) {m m' : DImg} {r}, DImg.shredLoop fill map is m = (r, m') → Keeps33 P m.bytes m'.bytes := by
  intro is
  induction is with
  | nil => intro m m' r h; simp only [DImg.shredLoop] at h; injection h with _ h; subst h; exact Keeps33.refl _ _
  | cons i is ih =>
    intro m m' r h
    simp only [DImg.shredLoop] at h
    split at h
    · injection h with _ h; subst h; exact Keeps33.refl _ _
    · rename_i hi
      refine Keeps33.trans ?_ (ih h)
      exact clip_keeps33 (by rw [List.length_replicate]) (hm i hi)
    · exact ih h

theorem getDirectory33_bytes {m m' : DImg} {r} (h : DImg.getDirectory m = (r, m')) :
    m'.bytes = m.bytes ∧ m'.maxSectors = m.maxSectors ∧ m'.firstDir = m.firstDir := by
  unfold DImg.getDirectory at h
  split at h <;> (injection h with _ h; subst h; exact ⟨rfl, rfl, rfl⟩)

theorem getMetadata33_bytes {m m' : DImg} {r} (h : DImg.getMetadata m = (r, m')) : m'.bytes = m.bytes := by
  unfold DImg.getMetadata at h
  split at h
  · injection h with _ h; subst h; rfl
  · have hv : (DImg.getVtoc m).2.bytes = m.bytes := by
      unfold DImg.getVtoc
      split
      · rfl
      · simp only
        split <;> rfl
    split at h
    · rename_i m1 hv1
      rw [hv1] at hv
      injection h with _ h; subst h; exact hv
    · rename_i m1 hv1
      rw [hv1] at hv
      split at h
      · rename_i m2 hd
        injection h with _ h; subst h
        exact (getDirectory33_bytes hd).1.trans hv
      · rename_i m2 hd
        have := (getDirectory33_bytes hd).1.trans hv
        split at h <;> (injection h with _ h; subst h; exact this)

theorem rollback33_bytes {m : DImg} {n : Nat} (hn : n = m.bytes.length) : (m.rollback ⟨0, n⟩).bytes = m.bytes := by
  subst hn
  show splice m.bytes 0 (slice m.bytes 0 (0 + m.bytes.length)) = m.bytes
  exact splice_slice_self _ _ _ (by omega) (by omega)

theorem transaction33_keeps {P : Nat → Prop} {body : Proc DImg Unit} {m m' : DImg} {r}
    (hb : ∀ r1 m1, body m = (r1, m1) → Keeps33 P m.bytes m1.bytes) (h : DImg.transaction body m = (r, m')) : Keeps33 P m.bytes m'.bytes := by
  unfold DImg.transaction at h
  simp only at h
  cases hx : body m with
  | mk r1 m1 =>
    have k := hb r1 m1 hx
    rw [hx] at h
    cases r1 with
    | ok _ =>
      simp only at h
      rw [getMetadata33_bytes h]
      exact k
    | error e =>
      simp only at h
      have hroll : (if e.isAtr then m1.rollback ⟨0, m.bytes.length⟩ else m1).bytes = m1.bytes := by
        split
        · exact rollback33_bytes k.len.symm
        · rfl
      cases hg : DImg.getMetadata (if e.isAtr then m1.rollback ⟨0, m.bytes.length⟩ else m1) with
      | mk r2 m2 =>
        have := getMetadata33_bytes hg
        rw [hg] at h
        rw [hroll] at this
        cases r2 with
        | ok _ => injection h with _ h; subst h; rw [this]; exact k
        | error _ => injection h with _ h; subst h; rw [this]; exact k

/-! ### the catalog sectors that are written -/

/-- links are the same -/
def SameLinks (b b' : Bytes) : Prop := ∀ s, linkOf (sec33 b' s) = linkOf (sec33 b s)

theorem SameLinks.linked {b b' : Bytes} (h : SameLinks b b') {s x : Nat} (hl : Linked33 b' s x) : Linked33 b s x := by
  induction hl with
  | here s => exact .here s
  | @next s x h0 _ ih =>
    rw [h] at h0 ih
    exact .next h0 ih

theorem numberCat_linked {maxS : Nat} {b : Bytes} : ∀ (ws : List WSector) (cur : Nat) {ws' : List WSector}, numberCatSecs maxS b cur ws = .ok ws' →
    ∀ w ∈ ws', Linked33 b cur w.num := by
  intro ws
  induction ws with
  | nil => intro cur ws' h w hw; simp only [numberCatSecs] at h; injection h with h; subst h; cases hw
  | cons a ws ih =>
    intro cur ws' h w hw
    simp only [numberCatSecs] at h
    split at h
    · cases h
    · split at h
      · cases h
      · split at h
        · cases h
        · rename_i hl
          cases hn : numberCatSecs maxS b (linkOf (sec33 b cur)) ws with
          | error e => rw [hn] at h; cases h
          | ok ws1 =>
            rw [hn] at h
            injection h with h
            subst h
            rcases List.mem_cons.mp hw with rfl | hw
            · exact .here cur
            · exact .next hl (ih _ hn w hw)

theorem calcCat_linked {m : DImg} {ds : List DDirent} {ws : List WSector} (h : m.calcCatSectors ds = .ok ws) : ∀ w ∈ ws, Linked33 m.bytes m.firstDir w.num := by
  unfold DImg.calcCatSectors at h
  split at h
  · cases h
  · exact numberCat_linked _ _ h

theorem calcBitmap_links {b : Bytes} (hb : b.length = 143360) (map : List Bool) :
    (splice b (256 * 272) (vtocStore33 (sec33 b 272) map)).length = 143360 ∧
    SameLinks b (splice b (256 * 272) (vtocStore33 (sec33 b 272) map)) ∧
    ∀ P : Nat → Prop, ¬ P 272 → Keeps33 P b (splice b (256 * 272) (vtocStore33 (sec33 b 272) map)) := by
  have h2 := length_sec33 hb (show 272 < 560 by omega)
  have hv := length_vtocStore33 h2 map
  refine ⟨(length_splice _ _ _ (by omega)).trans hb, fun s => ?_, fun P hP => clip_keeps33 (by omega) hP⟩
  by_cases hs : s = 272
  · subst hs
    rw [sec33_splice_same hb (by omega) hv]
    unfold linkOf
    rw [vtocStore33_head h2 map (by omega), vtocStore33_head h2 map (by omega)]
  · rw [sec33_splice_other hb (by omega) hv hs]

theorem SameLinks.trans {a b c : Bytes} (h1 : SameLinks a b) (h2 : SameLinks b c) : SameLinks a c := fun s => (h2 s).trans (h1 s)

/-! ### the operations -/

theorem vtocMap_free {m : DImg} {map : List Bool} (hb : m.bytes.length = 143360) (h : m.getVtocMap = .ok map) (s : Nat) :
    map[s]? = some true ↔ IsFree33 m.bytes s := by
  unfold DImg.getVtocMap getSec33 at h
  split at h
  · cases h
  · rename_i d hd
    split at hd
    · injection hd with hd
      injection h with h
      subst h
      subst hd
      exact (isFree33_iff hb s).symm
    · cases hd

theorem shredBody_keeps33 {m m' : DImg} {fill : Nat} {r} (hb : m.bytes.length = 143360) (h : DImg.shredBody fill m = (r, m')) :
    Keeps33 (InUse33 m) m.bytes m'.bytes := by
  unfold DImg.shredBody at h
  cases hv : m.getVtocMap with
  | error e => rw [hv] at h; injection h with _ h; subst h; exact Keeps33.refl _ _
  | ok map =>
    rw [hv] at h
    exact shredLoop_keeps33 (fun s hs hp => hp.2.1 ((vtocMap_free hb hv s).mp hs)) _ h

theorem deleteBody_keeps33 {m m' : DImg} {name : Bytes} {r} (hb : m.bytes.length = 143360) (h : DImg.deleteBody name m = (r, m')) :
    Keeps33 (InUse33 m) m.bytes m'.bytes := by
  unfold DImg.deleteBody at h
  cases hd : DImg.getDirectory m with
  | mk r0 m0 =>
    obtain ⟨e1, e2, e3⟩ := getDirectory33_bytes hd
    rw [hd] at h
    cases r0 with
    | error e => injection h with _ h; subst h; rw [e1]; exact Keeps33.refl _ _
    | ok ds =>
      simp only at h
      rw [← e1] at hb
      have hU : ∀ s, InUse33 m s → s ≠ 272 ∧ ¬ IsFree33 m0.bytes s ∧ ¬ Linked33 m0.bytes m0.firstDir s := by
        intro s hs
        rw [e1, e3]
        exact hs
      rw [← e1]
      clear e1 e2 e3 hd
      split at h
      · injection h with _ h; subst h; exact Keeps33.refl _ _
      · split at h
        · injection h with _ h; subst h; exact Keeps33.refl _ _
        · split at h
          · injection h with _ h; subst h; exact Keeps33.refl _ _
          · split at h
            · injection h with _ h; subst h; exact Keeps33.refl _ _
            · rename_i map2 _
              obtain ⟨v, hc, hn, _⟩ := calcBitmap33 hb map2
              rw [hc] at h
              simp only at h
              obtain ⟨l1, l2, l3⟩ := calcBitmap_links hb map2
              have k1 := l3 (InUse33 m) (fun hp => hp.1 rfl)
              generalize splice m0.bytes (256 * 272) (vtocStore33 (sec33 m0.bytes 272) map2) = bA at h l1 l2 k1
              split at h
              · injection h with _ h; subst h; exact k1
              · rename_i cat hcat
                have hcl := calcCat_linked hcat
                cases hw : DImg.writeSectors [v] { m0 with bytes := bA } with
                | mk r1 m1 =>
                  have k2 := writeSectors_keeps33 (P := InUse33 m) [v] (fun w hw hp => by
                    rw [List.mem_singleton.mp hw] at hp
                    exact hp.1 hn) hw
                  rw [hw] at h
                  cases r1 with
                  | error e => injection h with _ h; subst h; exact k1.trans k2
                  | ok _ =>
                    have k3 := writeSectors_keeps33 (P := InUse33 m) cat (fun w hw hp => (hU _ hp).2.2 (l2.linked (hcl w hw))) h
                    exact (k1.trans k2).trans k3

theorem freeList_iff {map : List Bool} {s : Nat} : s ∈ freeList map ↔ map[s]? = some true := by
  unfold freeList
  rw [mem_freeFrom]
  simp

theorem setNext33_num (s : WSector) (n : Nat) : (s.setNext33 n).num = s.num := rfl
theorem setNextPlain_num (s : WSector) (n : Nat) : (s.setNextPlain n).num = s.num := rfl

theorem writeBody_keeps33 {m m' : DImg} {name data : Bytes} {ftype : Nat} {r} (hb : m.bytes.length = 143360)
    (h : DImg.writeBody name ftype data m = (r, m')) : Keeps33 (InUse33 m) m.bytes m'.bytes := by
  unfold DImg.writeBody at h
  cases hd : DImg.getDirectory m with
  | mk r0 m0 =>
    obtain ⟨e1, e2, e3⟩ := getDirectory33_bytes hd
    rw [hd] at h
    cases r0 with
    | error e => injection h with _ h; subst h; rw [e1]; exact Keeps33.refl _ _
    | ok ds =>
      simp only at h
      rw [← e1] at hb
      have hU : ∀ s, InUse33 m s → s ≠ 272 ∧ ¬ IsFree33 m0.bytes s ∧ ¬ Linked33 m0.bytes m0.firstDir s := by
        intro s hs
        rw [e1, e3]
        exact hs
      rw [← e1]
      clear e1 e2 e3 hd
      cases hv : m0.getVtocMap with
      | error e => rw [hv] at h; injection h with _ h; subst h; exact Keeps33.refl _ _
      | ok map =>
        rw [hv] at h
        simp only at h
        have hfree := vtocMap_free hb hv
        cases hr1 : reserve (buildSectors33 data).length map with
        | error e => rw [hr1] at h; injection h with _ h; subst h; exact Keeps33.refl _ _
        | ok q1 =>
          obtain ⟨order, map1⟩ := q1
          rw [hr1] at h
          simp only at h
          obtain ⟨o1, o2, o3, o4, _, _⟩ := reserve_ok hr1
          obtain ⟨v1, hc1, hn1, _⟩ := calcBitmap33 hb map1
          rw [hc1] at h
          simp only at h
          obtain ⟨l1, l2, l3⟩ := calcBitmap_links hb map1
          have k1 := l3 (InUse33 m) (fun hp => hp.1 rfl)
          generalize splice m0.bytes (256 * 272) (vtocStore33 (sec33 m0.bytes 272) map1) = bA at h l1 l2 k1
          have hord : ∀ w ∈ linkSectors WSector.setNextPlain 0 (buildSectors33 data) order, ¬ InUse33 m w.num := by
            intro w hw hp
            have := linkSectors_num_mem _ setNextPlain_num 0 _ _ (by rw [o4]) w hw
            rw [o1] at this
            exact (hU _ hp).2.1 ((hfree _).mp (freeList_iff.mp (List.mem_of_mem_take this)))
          generalize linkSectors WSector.setNextPlain 0 (buildSectors33 data) order = sl at h hord
          split at h
          · injection h with _ h; subst h; exact k1
          · rename_i tl _
            cases hr2 : reserve tl.length map1 with
            | error e => rw [hr2] at h; injection h with _ h; subst h; exact k1
            | ok q2 =>
              obtain ⟨tsOrder, map2⟩ := q2
              rw [hr2] at h
              simp only at h
              obtain ⟨p1, p2, p3, p4, _, _⟩ := reserve_ok hr2
              obtain ⟨v2, hc2, hn2, _⟩ := calcBitmap33 (m := { m0 with bytes := bA }) l1 map2
              rw [hc2] at h
              simp only at h
              obtain ⟨l1', l2', l3'⟩ := calcBitmap_links l1 map2
              have k2 := k1.trans (l3' (InUse33 m) (fun hp => hp.1 rfl))
              have l2'' := l2.trans l2'
              generalize splice bA (256 * 272) (vtocStore33 (sec33 bA 272) map2) = bB at h l1' l2'' k2
              have hts : ∀ w ∈ linkSectors WSector.setNext33 0 tl tsOrder, ¬ InUse33 m w.num := by
                intro w hw hp
                have := linkSectors_num_mem _ setNext33_num 0 _ _ (by rw [p4]) w hw
                rw [p1, o2] at this
                exact (hU _ hp).2.1 ((hfree _).mp (freeList_iff.mp (List.mem_of_mem_drop (List.mem_of_mem_take this))))
              split at h
              · injection h with _ h; subst h; exact k2
              · rename_i t0 ts heq
                rw [heq] at hts
                generalize setDirent33 ds _ _ = ds' at h
                split at h
                · injection h with _ h; subst h; exact k2
                · rename_i cat hcat
                  have hcl := calcCat_linked hcat
                  cases hw : DImg.writeSectors (sl ++ t0 :: ts) { m0 with bytes := bB } with
                  | mk r1 m1 =>
                    have k3 := k2.trans (writeSectors_keeps33 (P := InUse33 m) (sl ++ t0 :: ts) (fun w hw => by
                      rcases List.mem_append.mp hw with hw | hw
                      · exact hord w hw
                      · exact hts w hw) hw)
                    rw [hw] at h
                    cases r1 with
                    | error e => injection h with _ h; subst h; exact k3
                    | ok _ =>
                      simp only at h
                      cases hw2 : DImg.writeSectors [v1, v2] m1 with
                      | mk r2 m2 =>
                        have k4 := k3.trans (writeSectors_keeps33 (P := InUse33 m) [v1, v2] (fun w hw hp => by
                          rcases List.mem_cons.mp hw with rfl | hw
                          · exact hp.1 hn1
                          · rw [List.mem_singleton.mp hw] at hp
                            exact hp.1 hn2) hw2)
                        rw [hw2] at h
                        cases r2 with
                        | error e => injection h with _ h; subst h; exact k4
                        | ok _ => exact k4.trans (writeSectors_keeps33 (P := InUse33 m) cat (fun w hw hp => (hU _ hp).2.2 (l2''.linked (hcl w hw))) h)

/-- **C72.** For every image of 143360 bytes, every file operation and every outcome: the image keeps its length, and every sector
that is neither offered by the VTOC, nor the VTOC itself, nor linked in the catalog keeps its bytes. -/
theorem C72_sectors_in_use {m m' : DImg} {op : Op33} {r} (hb : m.bytes.length = 143360) (h : op.run m = (r, m')) :
    m'.bytes.length = 143360 ∧ ∀ s, s ≠ 272 → ¬ IsFree33 m.bytes s → ¬ Linked33 m.bytes m.firstDir s → sec33 m'.bytes s = sec33 m.bytes s := by
  have k : Keeps33 (InUse33 m) m.bytes m'.bytes := by
    cases op with
    | write name ftype data => exact transaction33_keeps (fun _ _ h1 => writeBody_keeps33 hb h1) h
    | delete name => exact transaction33_keeps (fun _ _ h1 => deleteBody_keeps33 hb h1) h
    | shred fill => exact transaction33_keeps (fun _ _ h1 => shredBody_keeps33 hb h1) h
  exact ⟨k.len.trans hb, fun s h1 h2 h3 => k.secs s ⟨h1, h2, h3⟩⟩

/-! ### the operating system on a consistent volume -/

/-- a sector that is neither free, nor of a file, nor the VTOC, nor in the catalog: boot sectors, operating system -/
structure SysSec33 (b : Bytes) (cs : List Nat) (ds : List DDirent) (s : Nat) : Prop where
  vtoc : s ≠ 272
  cat : s ∉ cs
  used : ¬ IsFree33 b s
  file : ∀ d ∈ ds, d.deleted = false → ∀ ts map, FileSecs b d ts map → s ∉ ts ++ map

theorem mounted33_entries {m : DImg} {cs ds ds'} (h : Mounted33 m cs ds) (h' : Mounted33 m cs ds') : ds = ds' := h.2.dir.symm.trans h'.2.dir

/-- an old file has the sectors it had -/
theorem old_secs33 {b b' : Bytes} {d0 d : DDirent} {ts map ts' map'} (ho : OldEntry d0 d) (h0 : FileSecs b d0 ts map)
    (hk : ∀ x ∈ ts, sec33 b' x = sec33 b x) (h : FileSecs b' d ts' map') : ts' = ts ∧ map' = map :=
  h.unique (h0.frame hk ho.track ho.sector ho.num)

/-- every system sector is unchanged and still a system sector -/
def SysKept (cs : List Nat) (b : Bytes) (ds : List DDirent) (b' : Bytes) (ds' : List DDirent) : Prop :=
  ∀ s, SysSec33 b cs ds s → SysSec33 b' cs ds' s ∧ sec33 b' s = sec33 b s

theorem sys_write {m m' : DImg} {cs ds} {name data : Bytes} {ftype : Nat} (hm : Mounted33 m cs ds) (ht : ftype < 128) (ht0 : ftype ≠ 0)
    (hnew : norm33 name ∉ m.names) (hw : DImg.writeFile name ftype data m = (.ok (), m')) :
    ∃ ds', Mounted33 m' cs ds' ∧ SysKept cs m.bytes ds m'.bytes ds' := by
  obtain ⟨c, e⟩ := mounted33_iff.mp hm
  generalize m.bytes = b at c e
  subst e
  obtain ⟨hne, h2, h3, h4⟩ := (write33_ok_iff c ht ht0 hnew).mp (by rw [hw])
  have hidx := getFreeDirent33_lt c h3
  obtain ⟨b', order, tsOrder, map1, map2, w⟩ := writeBody33_ok c hne h2 ht hidx h4
  have c' := written33_consistent c hne ht0 hidx hnew w
  have hw' : DImg.writeFile name ftype data (mount33 b ds) = _ := transaction33_ok w.body c'
  rw [hw] at hw'
  injection hw' with _ hw'
  subst hw'
  have nf := newFile33_spec c hne w
  obtain ⟨_, uall⟩ := w.res.user c
  have hget := getElem?_after33 ds name (ftype := ftype) nf.first1 nf.first2 nf.n
  refine ⟨_, mounted33_mount c', fun s hs => ?_⟩
  have hso : s ∉ order ++ tsOrder := fun h => hs.used (uall s h).2
  refine ⟨⟨hs.vtoc, hs.cat, fun h => hs.used ((nf.free s).mp h).1, ?_⟩, w.others s hs.vtoc hs.cat hso⟩
  intro d hd hl ts map hf hx
  obtain ⟨i, hi⟩ := List.getElem?_of_mem hd
  rw [hget] at hi
  by_cases hik : i = getFreeDirent33 ds
  · rw [if_pos hik] at hi
    injection hi with hi
    subst hi
    rw [hik] at hf
    obtain ⟨rfl, rfl⟩ := nf.secs.unique hf
    exact hso (List.perm_append_comm.mem_iff.mp hx)
  · rw [if_neg hik] at hi
    obtain ⟨d0, g1, g2⟩ := Option.map_eq_some_iff.mp hi
    subst g2
    have ho := oldEntry_reread c g1
    have hl0 : d0.deleted = false := by rw [← ho.live]; exact hl
    obtain ⟨ts0, map0, f1, _, _, f4⟩ := c.files d0 (List.mem_of_getElem? g1) hl0
    obtain ⟨rfl, rfl⟩ := old_secs33 ho f1 (fun x hx => by
      obtain ⟨⟨_, _, u3, u4⟩, u5⟩ := f4 x (by simp [hx])
      exact w.others x u3 u4 (fun h => u5 (uall x h).2)) hf
    exact hs.file d0 (List.mem_of_getElem? g1) hl0 _ _ f1 hx

theorem sys_delete {m m' : DImg} {cs ds} {name : Bytes} (hm : Mounted33 m cs ds) (hn : name ∈ m.names)
    (hw : DImg.deleteFile name m = (.ok (), m')) : ∃ ds', Mounted33 m' cs ds' ∧ SysKept cs m.bytes ds m'.bytes ds' := by
  obtain ⟨c, e⟩ := mounted33_iff.mp hm
  generalize m.bytes = b at c e
  subst e
  obtain ⟨d, hd, hdn⟩ := List.mem_map.mp hn
  have hd' : d ∈ ds.filter (fun d => !d.deleted) := hd
  obtain ⟨hdm, hdl⟩ := List.mem_filter.mp hd'
  have hl : d.deleted = false := by simpa using hdl
  obtain ⟨k, hk⟩ := List.getElem?_of_mem hdm
  obtain ⟨b', ts, map, hf, w⟩ := deleteBody33_ok c hk hl
  have c' := deleted33_consistent c hk hl hf w
  have hb := w.body
  rw [hdn] at hb
  have hw' : DImg.deleteFile name (mount33 b ds) = _ := transaction33_ok hb c'
  rw [hw] at hw'
  injection hw' with _ hw'
  subst hw'
  refine ⟨_, mounted33_mount c', fun s hs => ?_⟩
  have hsf := hs.file d hdm hl _ _ hf
  refine ⟨⟨hs.vtoc, hs.cat, fun h => ?_, ?_⟩, w.others s hs.vtoc hs.cat⟩
  · rcases (w.free s).mp h with h | h
    · exact hs.used h
    · exact hsf h
  · intro d1 hd1 hl1 ts1 map1 hf1 hx
    obtain ⟨i, hi⟩ := List.getElem?_of_mem hd1
    rw [getElem?_del33 hk] at hi
    by_cases hik : i = k
    · rw [if_pos hik] at hi
      injection hi with hi
      subst hi
      rw [(deleted33_entry c hk).1] at hl1
      cases hl1
    · rw [if_neg hik] at hi
      obtain ⟨d0, g1, g2⟩ := Option.map_eq_some_iff.mp hi
      subst g2
      have ho := oldEntry_reread c g1
      have hl0 : d0.deleted = false := by rw [← ho.live]; exact hl1
      obtain ⟨ts0, map0, f1, _, _, f4⟩ := c.files d0 (List.mem_of_getElem? g1) hl0
      obtain ⟨rfl, rfl⟩ := old_secs33 ho f1 (fun x hx => by
        obtain ⟨⟨_, _, u3, u4⟩, _⟩ := f4 x (by simp [hx])
        exact w.others x u3 u4) hf1
      exact hs.file d0 (List.mem_of_getElem? g1) hl0 _ _ f1 hx

theorem sys_shred {m m' : DImg} {cs ds} {fill : Nat} {r} (hm : Mounted33 m cs ds)
    (hw : DImg.shred fill m = (r, m')) : ∃ ds', Mounted33 m' cs ds' ∧ SysKept cs m.bytes ds m'.bytes ds' := by
  obtain ⟨c, e⟩ := mounted33_iff.mp hm
  generalize m.bytes = b at c e
  subst e
  obtain ⟨b', w⟩ := shredBody33_ok c fill
  have c' := shredded33_consistent c w
  have hw' : DImg.shred fill (mount33 b ds) = _ := transaction33_ok w.body c'
  rw [hw] at hw'
  injection hw' with _ hw'
  subst hw'
  have h272 : sec33 b' 272 = sec33 b 272 := w.others 272 (fun h => (c.free 272 h).2.2.1 rfl)
  refine ⟨_, mounted33_mount c', fun s hs => ⟨⟨hs.vtoc, hs.cat, fun h => hs.used ?_, ?_⟩, w.others s hs.used⟩⟩
  · have h : IsFree33 b' s := h
    unfold IsFree33 at h ⊢
    rw [h272] at h
    exact h
  · intro d hd hl ts map hf hx
    obtain ⟨ts0, map0, f1, _, _, f4⟩ := c.files d hd hl
    obtain ⟨rfl, rfl⟩ := old_secs33 (OldEntry.refl d) f1 (fun x hx => w.others x (f4 x (by simp [hx])).2) hf
    exact hs.file d hd hl _ _ f1 hx

/-- as `Rep33`, and the sectors of `S` are system sectors with the bytes they have in `b0` -/
def RepSys33 (cs : List Nat) (S : Nat → Prop) (b0 : Bytes) (m : DImg) (M : FMap) : Prop :=
  Rep33 cs m M ∧ ∃ ds, Mounted33 m cs ds ∧ ∀ s, S s → SysSec33 m.bytes cs ds s ∧ sec33 m.bytes s = sec33 b0 s

theorem RepSys33.step {cs S b0 m m' M M' ds ds'} (r : RepSys33 cs S b0 m M) (hm : Mounted33 m cs ds) (hr : Rep33 cs m' M')
    (hm' : Mounted33 m' cs ds') (hk : SysKept cs m.bytes ds m'.bytes ds') : RepSys33 cs S b0 m' M' := by
  obtain ⟨_, ds1, h1, h2⟩ := r
  have := mounted33_entries h1 hm
  subst this
  refine ⟨hr, ds', hm', fun s hs => ?_⟩
  obtain ⟨k1, k2⟩ := hk s (h2 s hs).1
  exact ⟨k1, k2.trans (h2 s hs).2⟩

theorem simSys33 {t : Char} (ht : t ≠ 'T') (cs : List Nat) (S : Nat → Prop) (b0 : Bytes) :
    Sim (dos33Driver t) (RepSys33 cs S b0) Fits33 (7 * (cs.length - 1)) where
  load := fun r => (sim33 ht cs).load r.1
  find_mem := fun r hn => (sim33 ht cs).find_mem r.1 hn
  find_not := fun r hn => (sim33 ht cs).find_not r.1 hn
  delete := by
    intro m M n r hn
    obtain ⟨m', k1, k2⟩ := (sim33 ht cs).delete r.1 hn
    obtain ⟨ds, h1, _⟩ := id r.1
    obtain ⟨ds', g1, g2⟩ := sys_delete h1 (r.1.names.symm.subset hn) k1
    exact ⟨m', k1, r.step h1 k2 g1 g2⟩
  write := by
    intro m M n d r hn hp hs
    rcases (sim33 ht cs).write r.1 hn hp hs with ⟨m', k1, k2⟩ | h
    · left
      obtain ⟨ds, h1, _⟩ := id r.1
      obtain ⟨t1, t2⟩ := textToType33_ok ht
      obtain ⟨ds', g1, g2⟩ := sys_write h1 t1 t2 (by rw [hp.1]; exact fun hx => hn (r.1.names.subset hx)) k1
      exact ⟨m', k1, r.step h1 k2 g1 g2⟩
    · exact Or.inr h
  shred := by
    intro m M r
    obtain ⟨m', k1, k2⟩ := (sim33 ht cs).shred r.1
    obtain ⟨ds, h1, _⟩ := id r.1
    obtain ⟨ds', g1, g2⟩ := sys_shred h1 k1
    exact ⟨m', k1, r.step h1 k2 g1 g2⟩

/-- **C72, histories.** On a consistent DOS 3.3 volume any history of `add` / `remove` / shred commands as in C14 leaves every sector
alone that is at the start neither free, nor of a file, nor the VTOC, nor in the catalog: the boot sectors and the operating
system. -/
theorem C72_history {cat b M ds} (cs : List (Char × Opts × Cmd)) (hh : Holds33 cat b M) (hc : Consistent33 b cat ds) (ht : ∀ x ∈ cs, x.1 ≠ 'T')
    (hl : HistoryLegalG Fits33 (7 * (cat.length - 1)) M (cs.map (·.2)) (runHistory33 cs b).1) :
    (runHistory33 cs b).2.length = b.length ∧ ∀ s, SysSec33 b cat ds s → sec33 (runHistory33 cs b).2 s = sec33 b s := by
  have hmap : (cs.map fun x => (dos33Driver x.1, x.2)).map (·.2) = cs.map (·.2) := by rw [List.map_map]; rfl
  obtain ⟨m, ds', h1, h2, h3, h4⟩ := hh
  have hds : ds' = ds := by
    have := h2.2.dir
    rw [h3] at this
    exact this.symm.trans hc.dir
  subst hds
  subst h3
  have := history_sim (D0 := dos33Driver 'B') (R := RepSys33 cat (SysSec33 m.bytes cat ds') m.bytes) (P := Fits33) (cap := 7 * (cat.length - 1))
    (cs.map fun x => (dos33Driver x.1, x.2)) m.bytes M
    (fun y hy => by
      obtain ⟨x, hx, rfl⟩ := List.mem_map.mp hy
      exact ⟨simSys33 (ht x hx) cat _ _, rfl, rfl⟩)
    ⟨m, h1, ⟨⟨ds', h2, h4⟩, ds', h2, fun s hs => ⟨hs, rfl⟩⟩, rfl⟩ (by rw [hmap]; exact hl)
  obtain ⟨m', _, ⟨_, ds2, g2, g3⟩, g4⟩ := this
  have e : (runHistory33 cs m.bytes).2 = m'.bytes := g4.symm
  rw [e]
  exact ⟨g2.2.size.trans h2.2.size.symm, fun s hs => (g3 s hs).2⟩

/-- on the disks that come with the program these are at least tracks 0 to 2 -/
theorem template33_sys {b : Bytes} (t : Template33 b) {s : Nat} (hs : s < 48) : SysSec33 b catBlank33 [] s := by
  refine ⟨by omega, fun h => ?_, fun h => ?_, fun d hd => by cases hd⟩
  · have : ∀ x ∈ catBlank33, 48 ≤ x := by decide
    have := this s h
    omega
  · have := (template33_free t s).mp h
    omega

/-- six commands on the blank disk, some of which fail, leave tracks 0 to 2 alone -/
example : ∀ s, s < 48 → sec33 (runHistory33 sampleHistory33 blank33).2 s = sec33 blank33 s := by
  intro s hs
  have fA : norm33 nameA = nameA ∧ ∀ c ∈ nameA.take 30, c < 0x80 := by decide
  have fB : norm33 nameB = nameB ∧ ∀ c ∈ nameB.take 30, c < 0x80 := by decide
  have hA : ∀ d : Bytes, d ≠ [] → Fits33 nameA d := fun d hd => ⟨fA.1, fA.2, hd⟩
  have hB : ∀ d : Bytes, d ≠ [] → Fits33 nameB d := fun d hd => ⟨fB.1, fB.2, hd⟩
  refine (C72_history sampleHistory33 holds_blank33 (template33_consistent blank33_template) ?_ ?_).2 s (template33_sys blank33_template hs)
  · decide
  · refine historyLegal_within33 (N := [nameA, nameB]) (by decide) _ _ _ ⟨List.Pairwise.nil, fun k hk => by cases hk⟩ ?_
    intro y hy
    obtain ⟨x, hx, rfl⟩ := List.mem_map.mp hy
    simp only [sampleHistory33, List.mem_cons, List.not_mem_nil, or_false] at hx
    rcases hx with rfl | rfl | rfl | rfl | rfl | rfl <;> simp [Cmd.Within33, hA, hB, dataA_ne, dataB_ne]

theorem chain33_linked {b : Bytes} {s cs} (hch : Chain33 b s cs) : cs ≠ [] → ∀ x, Linked33 b s x → x ∈ cs := by
  induction hch with
  | nil => intro hx; exact absurd rfl hx
  | @cons s cs h0 h1 h2 ih =>
    intro _ x hx
    cases hx with
    | here => exact List.mem_cons_self ..
    | next hn hx =>
      refine List.mem_cons_of_mem _ (ih ?_ x hx)
      intro he
      subst he
      generalize linkOf (sec33 b s) = q at hn h2
      cases h2
      exact hn rfl

/-- the general frame on the blank disk: even the failing write of an empty file leaves the boot sector alone -/
example (name : Bytes) : sec33 (DImg.writeFile name 4 [] (mount33 blank33 [])).2.bytes 0 = sec33 blank33 0 := by
  have e : (mount33 blank33 []).bytes = blank33 := mount33_bytes _ _
  have h := (C72_sectors_in_use (m := mount33 blank33 []) (op := .write name 4 []) (by rw [e]; exact blank33_template.size)
    (Prod.eta (DImg.writeFile name 4 [] (mount33 blank33 []))).symm).2 0 (by omega)
  rw [e] at h
  refine h ?_ ?_
  · intro h
    have := (template33_free blank33_template 0).mp h
    omega
  · intro h
    have := chain33_linked (template33_consistent blank33_template).cat (by decide) 0 h
    revert this
    decide

end Atr
