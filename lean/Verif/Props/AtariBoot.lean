import Verif.Props.AtariOpen
import Verif.Props.AtariFiles
import Verif.Spec.Detect
/-!
# C67: file operations never change the boot sectors

For *every* image (consistent or not), every file operation and every outcome, successful or not.
-/
namespace Atr

/-- same header, same number of bytes, same first `k` bytes -/
structure Keeps (k : Nat) (m m' : AImg) : Prop where
  hdr : m'.hdr = m.hdr
  len : m'.bytes.length = m.bytes.length
  front : m'.bytes.take k = m.bytes.take k

theorem Keeps.refl (k : Nat) (m : AImg) : Keeps k m m := ⟨rfl, rfl, rfl⟩
theorem Keeps.trans {k : Nat} {a b c : AImg} (h1 : Keeps k a b) (h2 : Keeps k b c) : Keeps k a c :=
  ⟨h2.hdr.trans h1.hdr, h2.len.trans h1.len, h2.front.trans h1.front⟩
theorem Keeps.of_bytes {k : Nat} {m m' : AImg} (h1 : m'.hdr = m.hdr) (h2 : m'.bytes = m.bytes) : Keeps k m m' :=
  ⟨h1, by rw [h2], by rw [h2]⟩

theorem take_splice {a v : Bytes} {i k : Nat} (h1 : k ≤ i) (h2 : k ≤ a.length) : (splice a i v).take k = a.take k := by
  unfold splice
  rw [List.append_assoc, List.take_append_of_le_length (by rw [List.length_take]; omega), List.take_take, Nat.min_eq_left h1]

theorem splice_nil (a : Bytes) (i : Nat) : splice a i [] = a := by
  unfold splice
  simp

theorem length_splice_clipped (a v : Bytes) (i j : Nat) (h : v.length = min j a.length - min i a.length) :
    (splice a i v).length = a.length := by
  by_cases hi : i ≤ a.length
  · exact length_splice _ _ _ (by omega)
  · have : v = [] := List.length_eq_zero_iff.mp (by omega)
    rw [this, splice_nil]

theorem assignSlice_keeps {a a' v : Bytes} {i j k : Nat} (h : assignSlice a i j v = .ok a') (h1 : k ≤ i) (h2 : k ≤ a.length) :
    a'.length = a.length ∧ a'.take k = a.take k := by
  unfold assignSlice at h
  simp only at h
  split at h
  · rename_i hn
    injection h with h; subst h
    exact ⟨length_splice_clipped _ _ _ j hn, take_splice h1 h2⟩
  · split at h
    · injection h with h; subst h
      exact ⟨length_splice_clipped _ _ _ j (by rw [List.length_replicate]), take_splice h1 h2⟩
    · cases h

theorem fillSlice_keeps {a : Bytes} {i j k : Nat} (x : UInt8) (h1 : k ≤ i) (h2 : k ≤ a.length) :
    (fillSlice a i j x).length = a.length ∧ (fillSlice a i j x).take k = a.take k :=
  ⟨length_splice_clipped _ _ _ j (by rw [List.length_replicate]), take_splice h1 h2⟩

theorem getPos_after_boot {h : AHeader} {n s p k : Nat} (g : h.Geom n) (hs : 4 ≤ s) (hp : h.getPos s = .ok (p, k)) : bootEnd h ≤ p := by
  obtain ⟨_, _, h1⟩ := AHeader.getPos_ok g hp
  rcases h1 with ⟨_, h1, _⟩ | ⟨h1, h2, _⟩
  · rw [h1]
    unfold bootEnd AHeader.dpos
    rcases g.inits with gi | gi
    · rw [gi.1, gi.2, if_neg (by decide)]
      have : 3 * h.sectorSize ≤ (s - 1 - 0) * h.sectorSize := Nat.mul_le_mul_right _ (by omega)
      omega
    · rw [gi.1, gi.2.1, if_pos rfl]; omega
  · omega

theorem getContiguous_go_after {h : AHeader} {n k : Nat} (g : h.Geom n) : ∀ (l : List Nat) (start count : Nat) {st ct : Nat},
    (∀ i ∈ l, 4 ≤ i) → (start = 0 ∨ bootEnd h ≤ start) → (l = [] → bootEnd h ≤ start ∨ k = 0) →
    AHeader.getContiguous.go h l start count = .ok (st, ct) → bootEnd h ≤ st ∨ k = 0 := by
  intro l
  induction l with
  | nil =>
    intro start count st ct _ _ h3 h4
    injection h4 with h4
    injection h4 with h4 _
    subst h4
    exact h3 rfl
  | cons i is ih =>
    intro start count st ct h1 h2 _ h4
    unfold AHeader.getContiguous.go at h4
    cases hp : h.getPos i with
    | error e => rw [hp] at h4; cases h4
    | ok q =>
      obtain ⟨pos, size⟩ := q
      rw [hp] at h4
      simp only at h4
      have hb := getPos_after_boot g (h1 i (List.mem_cons_self ..)) hp
      refine ih _ _ (fun x hx => h1 x (List.mem_cons_of_mem _ hx)) ?_ (fun _ => Or.inl ?_) h4
      · split
        · exact Or.inr hb
        · rcases h2 with h2 | h2
          · contradiction
          · exact Or.inr h2
      · split
        · exact hb
        · rcases h2 with h2 | h2
          · contradiction
          · exact h2

/-- the conditions under which an operation cannot reach the boot sectors: the header is one of an image of this size, the
VTOC lies after the boot sectors, and the bitmap does not offer sectors 1, 2, 3 as free -/
structure BootSafe (m : AImg) : Prop where
  geom : m.hdr.Geom m.bytes.length
  room : bootEnd m.hdr ≤ m.bytes.length
  vtoc : 4 ≤ m.firstVtoc
  used : ∀ vt, m.getVtocObject = .ok vt → ∀ s, 1 ≤ s → s < 4 → vt.map[s]? ≠ some true

theorem bootEnd_pos {h : AHeader} {n : Nat} (g : h.Geom n) : 0 < bootEnd h := by
  unfold bootEnd
  have := g.ssPos
  split <;> omega

theorem getVtocObject_view {m : AImg} {vt : AVtoc} (b : BootSafe m) (h : m.getVtocObject = .ok vt) : bootEnd m.hdr ≤ vt.view.off := by
  unfold AImg.getVtocObject at h
  cases hc : m.hdr.getContiguous m.firstVtoc m.numVtoc.toNat with
  | error e => rw [hc] at h; cases h
  | ok q =>
    obtain ⟨start, count⟩ := q
    rw [hc] at h
    simp only at h
    cases h2 : (if m.vtoc2 > 0 then m.hdr.getContiguous m.vtoc2 1 else Except.ok (0, 0)) with
    | error e => rw [h2] at h; cases h
    | ok q2 =>
      rw [h2] at h
      simp only at h
      split at h
      · rename_i hl
        injection h with h
        subst h
        show bootEnd m.hdr ≤ start
        by_cases hz : m.numVtoc.toNat = 0
        · exfalso
          rw [hz] at hc
          injection hc with hc
          injection hc with hs hct
          subst hs; subst hct
          rw [length_unpackbits, length_slice] at hl
          simp only [View.read, length_slice] at hl
          omega
        · have := getContiguous_go_after (k := 1) b.geom _ 0 0 (fun i hi => by
            rw [List.mem_range'_1] at hi; have := b.vtoc; omega) (Or.inl rfl) (fun he => by
            exfalso
            have := congrArg List.length he
            rw [List.length_range'] at this
            exact hz this) hc
          omega
      · cases h

theorem getVtocObject_sectors {m : AImg} {vt : AVtoc} (h : m.getVtocObject = .ok vt) : vt.sectors = [] := by
  unfold AImg.getVtocObject at h
  cases hc : m.hdr.getContiguous m.firstVtoc m.numVtoc.toNat with
  | error e => rw [hc] at h; cases h
  | ok q =>
    obtain ⟨start, count⟩ := q
    rw [hc] at h
    simp only at h
    cases h2 : (if m.vtoc2 > 0 then m.hdr.getContiguous m.vtoc2 1 else Except.ok (0, 0)) with
    | error e => rw [h2] at h; cases h
    | ok q2 =>
      rw [h2] at h
      simp only at h
      split at h
      · injection h with h
        subst h
        rfl
      · cases h

theorem writeSectors_keeps : ∀ (ws : List WSector) {m m' : AImg} {r} , m.hdr.Geom m.bytes.length → bootEnd m.hdr ≤ m.bytes.length →
    (∀ w ∈ ws, w.num = 0 ∨ 4 ≤ w.num) → AImg.writeSectors ws m = (r, m') → Keeps (bootEnd m.hdr) m m' := by
  intro ws
  induction ws with
  | nil =>
    intro m m' r _ _ _ h
    injection h with _ h
    subst h
    exact Keeps.refl _ _
  | cons w ws ih =>
    intro m m' r g hr hw h
    unfold AImg.writeSectors at h
    cases hp : m.hdr.getPos w.num with
    | error e =>
      rw [hp] at h
      injection h with _ h
      subst h
      exact Keeps.refl _ _
    | ok q =>
      obtain ⟨pos, size⟩ := q
      rw [hp] at h
      simp only at h
      have h4 : 4 ≤ w.num := by
        have := (AHeader.getPos_ok g hp).1
        have := hw w (List.mem_cons_self ..)
        omega
      have hb := getPos_after_boot g h4 hp
      cases ha : assignSlice m.bytes pos (pos + size) w.data with
      | error e =>
        rw [ha] at h
        injection h with _ h
        subst h
        exact Keeps.refl _ _
      | ok b =>
        rw [ha] at h
        simp only at h
        obtain ⟨k1, k2⟩ := assignSlice_keeps ha hb hr
        have := ih (m := { m with bytes := b }) (show m.hdr.Geom b.length by rw [k1]; exact g) (show bootEnd m.hdr ≤ b.length by rw [k1]; exact hr)
          (fun x hx => hw x (List.mem_cons_of_mem _ hx)) h
        exact (show Keeps _ m { m with bytes := b } from ⟨rfl, k1, k2⟩).trans this

theorem calcBitmap_keeps {m m' : AImg} {vt : AVtoc} {r} (hr : bootEnd m.hdr ≤ m.bytes.length)
    (hv : bootEnd m.hdr ≤ vt.view.off) (h : AImg.calcBitmap vt m = (r, m')) : Keeps (bootEnd m.hdr) m m' ∧
      ∀ vt', r = .ok vt' → vt'.sectors.map (·.num) = vt.sectors.map (·.num) ++ [360] := by
  unfold AImg.calcBitmap at h
  simp only at h
  split at h
  · injection h with h0 h
    subst h
    refine ⟨Keeps.refl _ _, ?_⟩
    intro vt' hvt
    rw [← h0] at hvt
    cases hvt
  · rename_i v1 ha
    injection h with h0 h
    subst h
    obtain ⟨k1, _⟩ := assignSlice_keeps (k := 0) ha (Nat.zero_le _) (Nat.zero_le _)
    refine ⟨⟨rfl, ?_, take_splice hv hr⟩, ?_⟩
    · refine length_splice_clipped _ _ _ (vt.view.off + vt.view.len) ?_
      rw [k1, View.read, length_slice]
      omega
    · intro vt' hvt
      rw [← h0] at hvt
      injection hvt with hvt
      subst hvt
      rw [List.map_append]
      rfl

theorem getDirectory_bytes {m m' : AImg} {r} (h : AImg.getDirectory m = (r, m')) : m'.hdr = m.hdr ∧ m'.bytes = m.bytes ∧
    m'.firstVtoc = m.firstVtoc ∧ m'.numVtoc = m.numVtoc ∧ m'.vtoc2 = m.vtoc2 := by
  unfold AImg.getDirectory at h
  simp only at h
  repeat' split at h
  all_goals (injection h with _ h; subst h; exact ⟨rfl, rfl, rfl, rfl, rfl⟩)

theorem getMetadata_bytes {m m' : AImg} {r} (h : AImg.getMetadata m = (r, m')) : m'.hdr = m.hdr ∧ m'.bytes = m.bytes := by
  unfold AImg.getMetadata at h
  cases hv : AImg.getVtoc m with
  | mk r1 m1 =>
    obtain ⟨a1, a2, _⟩ := getVtoc_keeps hv
    rw [hv] at h
    cases r1 with
    | error e => injection h with _ h; subst h; exact ⟨a1, a2⟩
    | ok _ =>
      simp only at h
      cases hd : AImg.getDirectory m1 with
      | mk r2 m2 =>
        obtain ⟨b1, b2, _⟩ := getDirectory_bytes hd
        rw [hd] at h
        cases r2 with
        | error e => injection h with _ h; subst h; exact ⟨b1.trans a1, b2.trans a2⟩
        | ok _ =>
          simp only at h
          split at h <;> (injection h with _ h; subst h; exact ⟨b1.trans a1, b2.trans a2⟩)

theorem transaction_keeps {body : Proc AImg Unit} {m m' : AImg} {r} {k : Nat} (hb : ∀ r1 m1, body m = (r1, m1) → Keeps k m m1)
    (h : AImg.transaction body m = (r, m')) : Keeps k m m' := by
  unfold AImg.transaction at h
  simp only at h
  cases hx : body m with
  | mk r1 m1 =>
    have k1 := hb r1 m1 hx
    rw [hx] at h
    cases r1 with
    | ok _ =>
      simp only at h
      obtain ⟨c1, c2⟩ := getMetadata_bytes h
      exact k1.trans (Keeps.of_bytes c1 c2)
    | error e =>
      simp only at h
      have hroll : Keeps k m (if e.isAtr then m1.rollback m.beginTransaction else m1) := by
        split
        · refine ⟨k1.hdr, ?_, ?_⟩
          · show (splice m1.bytes 0 (slice m1.bytes 0 (0 + m.bytes.length))).length = _
            rw [Nat.zero_add, ← k1.len, splice_slice_self _ _ _ (Nat.zero_le _) (Nat.le_refl _)]
          · show (splice m1.bytes 0 (slice m1.bytes 0 (0 + m.bytes.length))).take k = _
            rw [Nat.zero_add, ← k1.len, splice_slice_self _ _ _ (Nat.zero_le _) (Nat.le_refl _)]
            exact k1.front
        · exact k1
      cases hg : AImg.getMetadata (if e.isAtr then m1.rollback m.beginTransaction else m1) with
      | mk r2 m2 =>
        obtain ⟨c1, c2⟩ := getMetadata_bytes hg
        rw [hg] at h
        cases r2 with
        | ok _ => injection h with _ h; subst h; exact hroll.trans (Keeps.of_bytes c1 c2)
        | error _ => injection h with _ h; subst h; exact hroll.trans (Keeps.of_bytes c1 c2)

theorem linkSectors_num_mem (f : WSector → Nat → WSector) (hf : ∀ s n, (f s n).num = s.num) (fn : Nat) : ∀ (ws : List WSector) (ns : List Nat),
    ws.length = ns.length → ∀ w ∈ linkSectors f fn ws ns, w.num ∈ ns := by
  intro ws
  induction ws with
  | nil => intro ns _ w hw; cases ns <;> cases hw
  | cons s ss ih =>
    intro ns hl w hw
    cases ns with
    | nil => cases hl
    | cons n ns =>
      rw [linkSectors_cons _ _ _ _ _ _ (by simpa using hl)] at hw
      rcases List.mem_cons.mp hw with hw | hw
      · subst hw
        rw [hf]
        exact List.mem_cons_self ..
      · exact List.mem_cons_of_mem _ (ih ns (by simpa using hl) w hw)

theorem setNextAtari_num (s : WSector) (n : Nat) : (s.setNextAtari n).num = s.num := by
  unfold WSector.setNextAtari
  rfl

theorem numberDir_num : ∀ (ws : List WSector) (n : Nat), ∀ w ∈ numberDirSectors n ws, n ≤ w.num := by
  intro ws
  induction ws with
  | nil => intro n w hw; cases hw
  | cons s ss ih =>
    intro n w hw
    rcases List.mem_cons.mp hw with hw | hw
    · subst hw; exact Nat.le_refl _
    · have := ih (n + 1) w hw
      omega

theorem getVtocObject_congr {m m' : AImg} (h : m'.hdr = m.hdr ∧ m'.bytes = m.bytes ∧ m'.firstVtoc = m.firstVtoc ∧ m'.numVtoc = m.numVtoc ∧
    m'.vtoc2 = m.vtoc2) : m'.getVtocObject = m.getVtocObject := by
  obtain ⟨h1, h2, h3, h4, h5⟩ := h
  unfold AImg.getVtocObject
  rw [h1, h2, h3, h4, h5]

theorem BootSafe.congr {m m' : AImg} (b : BootSafe m) (h : m'.hdr = m.hdr ∧ m'.bytes = m.bytes ∧ m'.firstVtoc = m.firstVtoc ∧
    m'.numVtoc = m.numVtoc ∧ m'.vtoc2 = m.vtoc2) : BootSafe m' := by
  have he := getVtocObject_congr h
  obtain ⟨h1, h2, h3, h4, h5⟩ := h
  exact ⟨by rw [h1, h2]; exact b.geom, by rw [h1, h2]; exact b.room, by rw [h3]; exact b.vtoc, by rw [he]; exact b.used⟩

theorem writeBody_keeps {m m' : AImg} {name data : Bytes} {r} (b : BootSafe m) (h : AImg.writeBody name data m = (r, m')) :
    Keeps (bootEnd m.hdr) m m' := by
  unfold AImg.writeBody at h
  cases hd : AImg.getDirectory m with
  | mk r1 m1 =>
    have hc := getDirectory_bytes hd
    have k1 : Keeps (bootEnd m.hdr) m m1 := Keeps.of_bytes hc.1 hc.2.1
    have b1 := b.congr hc
    have e1 := hc.1
    rw [hd] at h
    cases r1 with
    | error e => injection h with _ h; subst h; exact k1
    | ok ds =>
      simp only at h
      refine k1.trans ?_
      rw [← e1]
      clear k1 hc hd b e1
      split at h
      · injection h with _ h; subst h; exact Keeps.refl _ _
      rename_i sl hsl
      split at h
      · injection h with _ h; subst h; exact Keeps.refl _ _
      rename_i vt hvt
      split at h
      · injection h with _ h; subst h; exact Keeps.refl _ _
      rename_i order map' hres
      obtain ⟨o1, _, _, o4, _, _⟩ := reserve_ok hres
      have hord : ∀ s ∈ order, s = 0 ∨ 4 ≤ s := by
        intro s hs
        rw [o1] at hs
        have := (mem_freeList _ _).mp (List.mem_of_mem_take hs)
        have h2 := b1.used vt hvt s
        by_cases h0 : s = 0
        · exact Or.inl h0
        · by_cases h4 : s < 4
          · exact absurd this (h2 (by omega) h4)
          · exact Or.inr (by omega)
      cases hcb : AImg.calcBitmap { vt with map := map' } m1 with
      | mk r2 m2 =>
        obtain ⟨k2, k2'⟩ := calcBitmap_keeps (vt := { vt with map := map' }) b1.room (show bootEnd m1.hdr ≤ vt.view.off from getVtocObject_view b1 hvt) hcb
        have hsec0 : vt.sectors = [] := getVtocObject_sectors hvt
        rw [hcb] at h
        cases r2 with
        | error e => injection h with _ h; subst h; exact k2
        | ok vt2 =>
          simp only at h
          have k2' := k2' vt2 rfl
          simp only [hsec0, List.map_nil, List.nil_append] at k2'
          refine k2.trans ?_
          rw [← k2.hdr]
          have g2 : m2.hdr.Geom m2.bytes.length := by rw [k2.hdr, k2.len]; exact b1.geom
          have r2 : bootEnd m2.hdr ≤ m2.bytes.length := by rw [k2.hdr, k2.len]; exact b1.room
          cases hw1 : AImg.writeSectors (linkSectors WSector.setNextAtari (ADirent.setValues name (getFreeDirent ds)).fileNum sl order) m2 with
          | mk r3 m3 =>
            have k3 := writeSectors_keeps _ g2 r2 (fun w hw => hord _ (linkSectors_num_mem _ setNextAtari_num _ _ _ (by rw [o4]) w hw)) hw1
            rw [hw1] at h
            cases r3 with
            | error e => injection h with _ h; subst h; exact k3
            | ok _ =>
              simp only at h
              refine k3.trans ?_
              rw [← k3.hdr]
              have g3 : m3.hdr.Geom m3.bytes.length := by rw [k3.hdr, k3.len]; exact g2
              have r3 : bootEnd m3.hdr ≤ m3.bytes.length := by rw [k3.hdr, k3.len]; exact r2
              cases hw2 : AImg.writeSectors vt2.sectors m3 with
              | mk r4 m4 =>
                have k4 := writeSectors_keeps _ g3 r3 (fun w hw => by
                  have : w.num ∈ vt2.sectors.map (·.num) := List.mem_map_of_mem hw
                  rw [k2'] at this
                  simp at this
                  omega) hw2
                rw [hw2] at h
                cases r4 with
                | error e => injection h with _ h; subst h; exact k4
                | ok _ =>
                  simp only at h
                  refine k4.trans ?_
                  rw [← k4.hdr]
                  refine writeSectors_keeps _ (by rw [k4.hdr, k4.len]; exact g3) (by rw [k4.hdr, k4.len]; exact r3) (fun w hw => ?_) h
                  have := numberDir_num _ _ w hw
                  omega

theorem deleteBody_keeps {m m' : AImg} {name : Bytes} {r} (b : BootSafe m) (h : AImg.deleteBody name m = (r, m')) :
    Keeps (bootEnd m.hdr) m m' := by
  unfold AImg.deleteBody at h
  cases hd : AImg.getDirectory m with
  | mk r1 m1 =>
    have hc := getDirectory_bytes hd
    have k1 : Keeps (bootEnd m.hdr) m m1 := Keeps.of_bytes hc.1 hc.2.1
    have b1 := b.congr hc
    have e1 := hc.1
    rw [hd] at h
    cases r1 with
    | error e => injection h with _ h; subst h; exact k1
    | ok ds =>
      simp only at h
      refine k1.trans ?_
      rw [← e1]
      clear k1 hc hd b e1
      split at h
      · injection h with _ h; subst h; exact Keeps.refl _ _
      split at h
      · injection h with _ h; subst h; exact Keeps.refl _ _
      split at h
      · injection h with _ h; subst h; exact Keeps.refl _ _
      rename_i vt hvt
      split at h
      · injection h with _ h; subst h; exact Keeps.refl _ _
      rename_i map' hfr
      cases hcb : AImg.calcBitmap { vt with map := map' } m1 with
      | mk r2 m2 =>
        obtain ⟨k2, k2'⟩ := calcBitmap_keeps (vt := { vt with map := map' }) b1.room (show bootEnd m1.hdr ≤ vt.view.off from getVtocObject_view b1 hvt) hcb
        have hsec0 : vt.sectors = [] := getVtocObject_sectors hvt
        rw [hcb] at h
        cases r2 with
        | error e => injection h with _ h; subst h; exact k2
        | ok vt2 =>
          simp only at h
          have k2' := k2' vt2 rfl
          simp only [hsec0, List.map_nil, List.nil_append] at k2'
          refine k2.trans ?_
          rw [← k2.hdr]
          have g2 : m2.hdr.Geom m2.bytes.length := by rw [k2.hdr, k2.len]; exact b1.geom
          have r2 : bootEnd m2.hdr ≤ m2.bytes.length := by rw [k2.hdr, k2.len]; exact b1.room
          cases hw2 : AImg.writeSectors vt2.sectors m2 with
          | mk r4 m4 =>
            have k4 := writeSectors_keeps _ g2 r2 (fun w hw => by
              have : w.num ∈ vt2.sectors.map (·.num) := List.mem_map_of_mem hw
              rw [k2'] at this
              simp at this
              omega) hw2
            rw [hw2] at h
            cases r4 with
            | error e => injection h with _ h; subst h; exact k4
            | ok _ =>
              simp only at h
              refine k4.trans ?_
              rw [← k4.hdr]
              refine writeSectors_keeps _ (by rw [k4.hdr, k4.len]; exact g2) (by rw [k4.hdr, k4.len]; exact r2) (fun w hw => ?_) h
              have := numberDir_num _ _ w hw
              omega

theorem shredLoop_keeps (fill : UInt8) (map : List Bool) (hmap : ∀ s, 1 ≤ s → s < 4 → map[s]? ≠ some true) : ∀ (is : List Nat) {m m' : AImg} {r},
    m.hdr.Geom m.bytes.length → bootEnd m.hdr ≤ m.bytes.length → AImg.shredLoop fill map is m = (r, m') → Keeps (bootEnd m.hdr) m m' := by
  intro is
  induction is with
  | nil =>
    intro m m' r _ _ h
    injection h with _ h
    subst h
    exact Keeps.refl _ _
  | cons i is ih =>
    intro m m' r g hr h
    unfold AImg.shredLoop at h
    cases hp : m.hdr.getPos i with
    | error e => rw [hp] at h; injection h with _ h; subst h; exact Keeps.refl _ _
    | ok q =>
      obtain ⟨pos, size⟩ := q
      rw [hp] at h
      simp only at h
      split at h
      · injection h with _ h; subst h; exact Keeps.refl _ _
      · rename_i hm
        have h4 : 4 ≤ i := by
          have h1 := (AHeader.getPos_ok g hp).1
          have := hmap i h1
          by_cases hi : i < 4
          · exact absurd hm (this hi)
          · omega
        obtain ⟨k1, k2⟩ := fillSlice_keeps (j := pos + size) fill (getPos_after_boot g h4 hp) hr
        have := ih (m := { m with bytes := fillSlice m.bytes pos (pos + size) fill }) (by rw [k1]; exact g) (by rw [k1]; exact hr) h
        exact (show Keeps _ m { m with bytes := fillSlice m.bytes pos (pos + size) fill } from ⟨rfl, k1, k2⟩).trans this
      · exact ih g hr h

theorem shredLoop_length (fill : UInt8) (map : List Bool) : ∀ (is : List Nat) {m m' : AImg} {r},
    AImg.shredLoop fill map is m = (r, m') → m'.bytes.length = m.bytes.length := by
  intro is
  induction is with
  | nil =>
    intro m m' r h
    injection h with _ h
    subst h
    rfl
  | cons s is ih =>
    intro m m' r h
    unfold AImg.shredLoop at h
    cases hp : m.hdr.getPos s with
    | error e => rw [hp] at h; injection h with _ h; subst h; rfl
    | ok q =>
      obtain ⟨pos, size⟩ := q
      rw [hp] at h
      simp only at h
      split at h
      · injection h with _ h; subst h; rfl
      · rw [ih (m := { m with bytes := fillSlice m.bytes pos (pos + size) fill }) h]
        exact length_splice_clipped _ _ _ (pos + size) (by rw [List.length_replicate])
      · exact ih h

theorem getElem?_append_of_some {α : Type} {l l' : List α} {i : Nat} {x : α} (h : l[i]? = some x) : (l ++ l')[i]? = some x := by
  have := (List.getElem?_eq_some_iff.mp h).1
  rw [List.getElem?_append_left this]
  exact h

theorem op_keeps {m m' : AImg} {op : Op} {r} (b : BootSafe m) (h : op.run m = (r, m')) : Keeps (bootEnd m.hdr) m m' := by
  cases op with
  | write name data => exact transaction_keeps (fun _ _ h1 => writeBody_keeps b h1) h
  | delete name => exact transaction_keeps (fun _ _ h1 => deleteBody_keeps b h1) h
  | shred fill =>
    refine transaction_keeps (fun r1 m1 h1 => ?_) h
    unfold AImg.shredBody at h1
    cases hv : m.getVtocObject with
    | error e => rw [hv] at h1; injection h1 with _ h1; subst h1; exact Keeps.refl _ _
    | ok vt =>
      rw [hv] at h1
      exact shredLoop_keeps _ _ (b.used vt hv) _ b.geom b.room h1

/-! ### images that open -/

theorem getVtoc_first {m m' : AImg} (h0 : m.total = 0) (hg : AImg.getVtoc m = (.ok (), m')) : m'.firstVtoc = 360 ∧ m'.numVtoc = 1 ∧
    m'.vtoc2 = if m.hdr.imageSize = 133120 then 1024 else m.vtoc2 := by
  unfold AImg.getVtoc at hg
  split at hg
  · cases hg
  split at hg
  · rename_i code t0 t1 u0 u1 _
    simp only at hg
    generalize hnum : (if code.toNat = 0 ∨ code.toNat = 2 then (1 : Int) else (code.toNat : Int) * 2 - 3) = num at hg
    split at hg
    · cases hg
    split at hg
    · cases hg
    · rename_i hn
      rw [calcVtocCode_zero { m with firstVtoc := (360 - num + 1).toNat, numVtoc := num } h0] at hn
      have hnum : num = 1 := by
        split at hnum <;> omega
      rw [hnum] at hg
      by_cases he : m.hdr.imageSize = 133120
      · rw [if_pos he] at hg ⊢
        repeat' split at hg
        all_goals first | (injection hg with _ hg; subst hg; exact ⟨rfl, rfl, rfl⟩) | cases hg
      · rw [if_neg he] at hg ⊢
        injection hg with _ hg
        subst hg
        exact ⟨rfl, rfl, rfl⟩
  · cases hg

theorem open_first {b : Bytes} {m : AImg} (ho : AImg.open b = .ok m) : openHeader b = .ok m.hdr ∧ m.bytes = b ∧ m.firstVtoc = 360 ∧ m.numVtoc = 1 ∧
    m.vtoc2 = if m.hdr.imageSize = 133120 then 1024 else 0 := by
  unfold AImg.open at ho
  cases hh : openHeader b with
  | error e => rw [hh] at ho; cases ho
  | ok h =>
    rw [hh] at ho
    simp only at ho
    cases hm : AImg.getMetadata { hdr := h, bytes := b } with
    | mk r m1 =>
      rw [hm] at ho
      obtain ⟨a1, a2⟩ := getMetadata_bytes hm
      cases r with
      | error e => cases ho
      | ok _ =>
        injection ho with ho
        subst ho
        refine ⟨by rw [a1], a2, ?_⟩
        unfold AImg.getMetadata at hm
        cases hv : AImg.getVtoc { hdr := h, bytes := b } with
        | mk r1 m2 =>
          rw [hv] at hm
          cases r1 with
          | error e => cases hm
          | ok _ =>
            obtain ⟨c1, c2, c3⟩ := getVtoc_first rfl hv
            simp only at hm
            cases hd : AImg.getDirectory m2 with
            | mk r2 m3 =>
              obtain ⟨_, _, d3, d4, d5⟩ := getDirectory_bytes hd
              rw [hd] at hm
              cases r2 with
              | error e => cases hm
              | ok _ =>
                simp only at hm
                split at hm
                · injection hm with _ hm
                  subst hm
                  exact ⟨d3.trans c1, d4.trans c2, by rw [a1]; exact d5.trans c3⟩
                · cases hm

theorem open_valid {b : Bytes} {m : AImg} (ho : AImg.open b = .ok m) : 368 ≤ m.hdr.maxSectors := by
  obtain ⟨h, h1, h2, _⟩ := (C58_opens_iff b).mp ⟨m, ho⟩
  have := (open_first ho).1
  rw [h1] at this
  injection this with this
  subst this
  exact h2

theorem vtocMap_of_open {b : Bytes} {m : AImg} {vt : AVtoc} (ho : AImg.open b = .ok m) (hv : m.getVtocObject = .ok vt) :
    vt.map = freeMap m.hdr b ++ List.replicate 560 false := by
  obtain ⟨h1, h2, h3, h4, _⟩ := open_first ho
  have g := openHeader_geom h1
  have hmax := open_valid ho
  have hd := dataSec_big g (s := 360) (by omega) (by omega)
  unfold AImg.getVtocObject at hv
  rw [h3, h4, show (1 : Int).toNat = 1 from rfl, getContiguous_one g hd, h2] at hv
  simp only at hv
  cases h5 : (if m.vtoc2 > 0 then m.hdr.getContiguous m.vtoc2 1 else Except.ok (0, 0)) with
  | error e => rw [h5] at hv; cases hv
  | ok q2 =>
    rw [h5] at hv
    simp only at hv
    split at hv
    · injection hv with hv
      subst hv
      rfl
    · cases hv

theorem bootSafe_open {b : Bytes} {m : AImg} (ho : AImg.open b = .ok m) (hu : ∀ s, 1 ≤ s → s < 4 → ¬ IsFree m.hdr b s) : BootSafe m := by
  obtain ⟨h1, h2, h3, h4, _⟩ := open_first ho
  have g := openHeader_geom h1
  have hmax := open_valid ho
  refine ⟨by rw [h2]; exact g, ?_, by omega, ?_⟩
  · obtain ⟨p, k, hp⟩ := AHeader.getPos_isOk g (s := 4) (by omega) (by omega)
    have h5 := getPos_after_boot g (Nat.le_refl 4) hp
    obtain ⟨_, _, h6⟩ := AHeader.getPos_ok g hp
    rcases h6 with ⟨h6, h7, _⟩ | ⟨h6, h7, _⟩
    · have := AHeader.dpos_fit g h6 (by omega)
      have := g.fit
      rw [h2]
      omega
    · omega
  · intro vt hv s hs1 hs2
    rw [vtocMap_of_open ho hv]
    have := hu s hs1 hs2
    unfold IsFree at this
    intro hx
    rw [List.getElem?_append] at hx
    split at hx
    · exact this hx
    · rw [List.getElem?_replicate] at hx
      split at hx <;> simp at hx

/-- **C67.** Let `b` be any image that opens as an Atari DOS volume (consistent or not) and whose bitmap does not offer the
boot sectors 1, 2, 3 as free.  Writing any file, deleting any name and shredding, whether they succeed or raise: the size of the
image, its ATR header and its three boot sectors stay as they are. -/
theorem C67_boot_sectors {b : Bytes} {m m' : AImg} {op : Op} {r} (ho : AImg.open b = .ok m)
    (hu : ∀ s, 1 ≤ s → s < 4 → ¬ IsFree m.hdr b s) (h : op.run m = (r, m')) :
    m'.hdr = m.hdr ∧ m'.bytes.length = b.length ∧ m'.bytes.take (bootEnd m.hdr) = b.take (bootEnd m.hdr) := by
  have k := op_keeps (bootSafe_open ho hu) h
  rw [← (open_first ho).2.1]
  exact ⟨k.hdr, k.len, k.front⟩

theorem bootSafe_mounted {m : AImg} {ds} (hm : Mounted m ds) : BootSafe m :=
  bootSafe_open hm.1 (fun s _ h4 hf => by have := (hm.2.free s hf).1; omega)

theorem getVtocObject_open {b : Bytes} {m : AImg} (ho : AImg.open b = .ok m) (hs : 100 ≤ m.hdr.sectorSize) : ∃ vt, m.getVtocObject = .ok vt := by
  obtain ⟨h1, h2, h3, h4, h5⟩ := open_first ho
  have g := openHeader_geom h1
  have hmax := open_valid ho
  have hd := dataSec_big g (s := 360) (by omega) (by omega)
  have hq : ∃ q, (if m.vtoc2 > 0 then m.hdr.getContiguous m.vtoc2 1 else Except.ok (0, 0)) = Except.ok q := by
    by_cases he : m.hdr.imageSize = 133120
    · rw [if_pos he] at h5
      have h1024 : 1024 ≤ m.hdr.maxSectors := by
        obtain ⟨h, k1, _, k2, _⟩ := (C58_opens_iff b).mp ⟨m, ho⟩
        rw [h1] at k1
        injection k1 with k1
        subst k1
        exact (k2.2.2 he).1
      rw [h5, if_pos (by decide)]
      exact ⟨_, getContiguous_one g (dataSec_big g (s := 1024) (by omega) h1024)⟩
    · rw [if_neg he] at h5
      rw [h5, if_neg (by decide)]
      exact ⟨_, rfl⟩
  obtain ⟨q, hq⟩ := hq
  unfold AImg.getVtocObject
  rw [h3, h4, show (1 : Int).toNat = 1 from rfl, getContiguous_one g hd, hq, h2]
  simp only
  have hl := length_sec g hd
  rw [if_pos]
  · exact ⟨_, rfl⟩
  · rw [length_unpackbits, length_slice, show View.read ⟨m.hdr.dpos 360, m.hdr.sectorSize⟩ b = sec m.hdr b 360 from rfl, hl]
    omega

theorem shredLoop_byte (fill : UInt8) (map : List Bool) (i : Nat) : ∀ (is : List Nat) {m m' : AImg} {r},
    m.bytes[i]? = some fill → AImg.shredLoop fill map is m = (r, m') → m'.bytes[i]? = some fill := by
  intro is
  induction is with
  | nil =>
    intro m m' r hb h
    injection h with _ h
    subst h
    exact hb
  | cons s is ih =>
    intro m m' r hb h
    unfold AImg.shredLoop at h
    cases hp : m.hdr.getPos s with
    | error e => rw [hp] at h; injection h with _ h; subst h; exact hb
    | ok q =>
      obtain ⟨pos, size⟩ := q
      rw [hp] at h
      simp only at h
      split at h
      · injection h with _ h; subst h; exact hb
      · refine ih (m := { m with bytes := fillSlice m.bytes pos (pos + size) fill }) ?_ h
        show (fillSlice m.bytes pos (pos + size) fill)[i]? = some fill
        unfold fillSlice
        by_cases hpos : pos ≤ m.bytes.length
        · rw [getElem?_splice _ _ _ _ (by rw [List.length_replicate]; omega), List.length_replicate]
          split
          · exact hb
          · split
            · rw [List.getElem?_replicate, if_pos (by omega)]
            · exact hb
        · rw [show min (pos + size) m.bytes.length - min pos m.bytes.length = 0 by omega, List.replicate_zero, splice_nil]
          exact hb
      · exact ih hb h

/-- **C67, the condition on the bitmap is needed.** If the bitmap offers sector 1, shredding erases the boot sector: its first
byte becomes the fill value. -/
theorem C67_free_boot_sector_erased {b : Bytes} {m : AImg} {fill : Nat} (ho : AImg.open b = .ok m) (hs : 100 ≤ m.hdr.sectorSize)
    (hf : IsFree m.hdr b 1) : (AImg.shred fill m).2.bytes[m.hdr.headerOffset]? = some (UInt8.ofNat fill) := by
  obtain ⟨vt, hv⟩ := getVtocObject_open ho hs
  have hmap := vtocMap_of_open ho hv
  obtain ⟨h1, h2, _⟩ := open_first ho
  have g := openHeader_geom h1
  have hmax := open_valid ho
  have hbody : ∀ r1 m1, AImg.shredBody fill m = (r1, m1) → m1.bytes[m.hdr.headerOffset]? = some (UInt8.ofNat fill) ∧ m1.bytes.length = m.bytes.length := by
    intro r1 m1 h
    unfold AImg.shredBody at h
    rw [hv] at h
    simp only at h
    refine ⟨?_, ?_⟩
    · obtain ⟨k, hk⟩ : ∃ k, m.hdr.maxSectors = k + 1 := ⟨m.hdr.maxSectors - 1, by omega⟩
      rw [g.label, hk, List.range'_succ] at h
      unfold AImg.shredLoop at h
      obtain ⟨p, k2, hp⟩ := AHeader.getPos_isOk g (s := 1) (by omega) (by omega)
      have hp' : p = m.hdr.headerOffset ∧ 0 < k2 ∧ p < b.length := by
        have gf := g.fit
        obtain ⟨_, _, h6⟩ := AHeader.getPos_ok g hp
        rcases h6 with ⟨h6, h7, h8⟩ | ⟨h6, h7, h8, h9⟩
        · have h10 := AHeader.dpos_fit g h6 (by omega)
          rcases g.inits with gi | gi
          · unfold AHeader.dpos at h7 h10
            rw [gi.1] at h7 h10
            simp at h7 h10
            omega
          · omega
        · rcases g.inits with gi | gi <;> omega
      rw [hp] at h
      simp only at h
      have h11 : vt.map[1]? = some true := by
        rw [hmap]
        exact getElem?_append_of_some hf
      rw [h11] at h
      simp only at h
      refine shredLoop_byte _ _ _ _ (m := { m with bytes := fillSlice m.bytes p (p + k2) (UInt8.ofNat fill) }) ?_ h
      show (fillSlice m.bytes p (p + k2) (UInt8.ofNat fill))[m.hdr.headerOffset]? = _
      rw [h2]
      unfold fillSlice
      rw [getElem?_splice _ _ _ _ (by rw [List.length_replicate]; omega), List.length_replicate, if_neg (by omega), if_pos (by omega),
        List.getElem?_replicate, if_pos (by omega)]
    · exact shredLoop_length _ _ _ h
  cases hx : AImg.shred fill m with
  | mk r m' =>
    show m'.bytes[m.hdr.headerOffset]? = _
    unfold AImg.shred AImg.transaction at hx
    simp only at hx
    cases hb : AImg.shredBody fill m with
    | mk r1 m1 =>
      obtain ⟨k1, k2⟩ := hbody r1 m1 hb
      rw [hb] at hx
      cases r1 with
      | ok _ => rw [(getMetadata_bytes hx).2]; exact k1
      | error e =>
        simp only at hx
        have hroll : (if e.isAtr then m1.rollback m.beginTransaction else m1).bytes = m1.bytes := by
          split
          · show splice m1.bytes 0 (slice m1.bytes 0 (0 + m.bytes.length)) = _
            rw [Nat.zero_add, ← k2, splice_slice_self _ _ _ (Nat.zero_le _) (Nat.le_refl _)]
          · rfl
        cases hg : AImg.getMetadata (if e.isAtr then m1.rollback m.beginTransaction else m1) with
        | mk r2 m2 =>
          obtain ⟨_, c2⟩ := getMetadata_bytes hg
          rw [hg] at hx
          cases r2 <;> (injection hx with _ hx; subst hx; rw [c2, hroll]; exact k1)

/-- **C67, histories.** On a consistent volume this holds for any number of (allowed) operations. -/
theorem C67_history {m m' : AImg} {ds} (hm : Mounted m ds) (hr : Reach m m') :
    m'.hdr = m.hdr ∧ m'.bytes.length = m.bytes.length ∧ m'.bytes.take (bootEnd m.hdr) = m.bytes.take (bootEnd m.hdr) := by
  have : Keeps (bootEnd m.hdr) m m' := by
    induction hr with
    | start => exact Keeps.refl _ _
    | step op hr ha ih =>
      rename_i m1
      obtain ⟨ds1, hm1⟩ := reach_mounted hm hr
      have k : Keeps (bootEnd m1.hdr) m1 (op.run m1).2 := op_keeps (bootSafe_mounted hm1) rfl
      rw [ih.hdr] at k
      exact ih.trans k
  exact ⟨this.hdr, this.len, this.front⟩

/-- a write to the blank single density disk: the sixteen header bytes and 384 boot bytes are as before -/
example : ∃ m', AImg.writeFile nameA dataA (mountRec sdH sdDisk []) = (.ok (), m') ∧ m'.findFile nameA = .ok dataA ∧
    m'.bytes.take 400 = sdDisk.take 400 := by
  obtain ⟨m1, _, _, _, h, h2, _, _, _, _, h5, _⟩ := two_files
  refine ⟨m1, h, mounted_find h2 (by rw [h5]; exact List.mem_singleton_self _), ?_⟩
  exact (C67_boot_sectors (op := .write nameA dataA) mounted_sd.1
    (fun s _ h4 hf => by have := (mounted_sd.2.free s hf).1; omega) h).2.2

/-- a disk image without header made of 720 given sectors -/
theorem xfd_of {f : Nat → Bytes} (hf : ∀ s, (f s).length = 128) (h0 : AHeader.parse (slice (f 0) 0 16) = .error .invalidAtrHeader) :
    ∃ b : Bytes, b.length = 92160 ∧ openHeader b = .ok xfdHeader ∧
      ∀ s, 1 ≤ s → s ≤ 720 → sectorBytes xfdHeader b s = f (s - 1) := by
  have hl : ((List.range 720).flatMap f).length = 92160 := by
    rw [flatMap128_length hf, List.length_range]
  have hs : ∀ s, 1 ≤ s → s ≤ 720 → sectorBytes xfdHeader ((List.range 720).flatMap f) s = f (s - 1) := fun s h1 h2 => by
    rw [xfd_sectorBytes h1 h2]; exact flatMap128_slice hf (by omega)
  have h1 : slice ((List.range 720).flatMap f) 0 128 = f 0 := flatMap128_slice (s := 0) hf (by omega)
  generalize (List.range 720).flatMap f = b at hl hs h1
  refine ⟨b, hl, ?_, hs⟩
  refine openHeader_xfd hl ?_
  have : slice b 0 16 = slice (slice b 0 128) 0 16 := by rw [slice_slice]; rfl
  rw [this, h1]
  exact h0

/-- a disk made of given sectors whose directory is empty and whose VTOC code is 2 opens -/
theorem xfd_open {f : Nat → Bytes} {b : Bytes} (ho : openHeader b = .ok xfdHeader)
    (hs : ∀ s, 1 ≤ s → s ≤ 720 → sectorBytes xfdHeader b s = f (s - 1)) (hv : (f 359).getD 0 0 = 2)
    (hd : DirFine 720 ((List.range' 361 8).flatMap (fun s => f (s - 1)))) : ∃ m, AImg.open b = .ok m ∧ m.hdr = xfdHeader := by
  have hdir : dirBytes xfdHeader b = (List.range' 361 8).flatMap (fun s => f (s - 1)) := by
    unfold dirBytes
    rw [List.flatMap_def, List.flatMap_def]
    congr 1
    apply List.map_congr_left
    intro s hm
    rw [List.mem_range'_1] at hm
    exact hs s (by omega) (by omega)
  obtain ⟨m, hm⟩ := (C58_opens_iff b).mpr ⟨xfdHeader, ho, by decide,
    ⟨by decide, Or.inr (by rw [hs 360 (by omega) (by omega)]; exact hv), by decide⟩, by rw [hdir]; exact hd⟩
  refine ⟨m, hm, ?_⟩
  have := (open_first hm).1
  rw [ho] at this
  injection this with this
  exact this.symm

/-- an empty disk whose bitmap offers sector 1 only -/
def offersBoot (s : Nat) : Bytes :=
  if s = 359 then sec128 [2, 0xc3, 2, 1, 0, 0, 0, 0, 0, 0, 0x40] else List.replicate 128 0

/-- shredding the disk that offers its boot sector overwrites it -/
example : ∃ b m, AImg.open b = .ok m ∧ b[0]? = some 0 ∧ (AImg.shred 0xe5 m).2.bytes[0]? = some 0xe5 := by
  have hl : ∀ s, (offersBoot s).length = 128 := by
    intro s
    unfold offersBoot sec128
    split <;> simp
  obtain ⟨b, hbl, ho, hs⟩ := xfd_of hl (by decide +kernel)
  obtain ⟨m, hm, hh⟩ := xfd_open ho hs (by decide +kernel) (.stop (by decide +kernel) (by decide +kernel))
  have h1 := hs 1 (by omega) (by omega)
  have h360 := hs 360 (by omega) (by omega)
  refine ⟨b, m, hm, ?_, ?_⟩
  · rw [xfd_sectorBytes (by omega) (by omega)] at h1
    have : (slice b (128 * (1 - 1)) (128 * (1 - 1) + 128))[0]? = some 0 := by rw [h1]; decide +kernel
    rw [getElem?_slice] at this
    simpa using this
  · have hf : IsFree m.hdr b 1 := by
      rw [hh]
      unfold IsFree freeMap
      have : sec xfdHeader b 360 = offersBoot 359 := by
        rw [xfd_sectorBytes (by omega) (by omega)] at h360
        exact h360
      rw [this]
      decide +kernel
    have := C67_free_boot_sector_erased (fill := 0xe5) hm (by rw [hh]; decide) hf
    rw [hh] at this
    exact this

end Atr
