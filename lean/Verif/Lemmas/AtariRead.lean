import Verif.Lemmas.AtariDir
/-! # Reading sector chains -/
namespace Atr

theorem getRawBytes_data {h : AHeader} {b : Bytes} {n : Nat} (g : h.Geom n) {s : Nat} (d : h.DataSec s) :
    h.getRawBytes b s = .ok (sec h b s, h.dpos s, h.sectorSize) := by
  simp [AHeader.getRawBytes, AHeader.getPos_data g d.1 d.2, sec]

theorem getRawBytes_ok {h : AHeader} {b : Bytes} {n : Nat} (g : h.Geom n) {s : Nat} {r} (hr : h.getRawBytes b s = .ok r) :
    1 ≤ s ∧ s ≤ h.maxSectors := by
  unfold AHeader.getRawBytes at hr
  cases hp : h.getPos s with
  | error e => simp [hp] at hr
  | ok q => have := AHeader.getPos_ok g (p := q.1) (k := q.2) hp; omega

theorem getRawBytes_error {h : AHeader} {b : Bytes} {s : Nat} {e} (hr : h.getRawBytes b s = .error e) : e = .byteNotInFile := by
  unfold AHeader.getRawBytes at hr
  cases hp : h.getPos s with
  | error e' =>
    simp [hp] at hr
    unfold AHeader.getPos at hp
    split at hp
    · simp at hp; rw [← hr, ← hp]
    · simp at hp
  | ok q => simp [hp] at hr

/-- one sector read without error -/
theorem readSector_ok {d : ADirent} {h : AHeader} {b : Bytes} {st st' : ReadSt} {last : Bool} {pos n : Nat}
    (hr : d.readSector h b st = .ok (st', last, pos, n)) :
    ∃ raw k, h.getRawBytes b st.cur = .ok (raw, pos, k) ∧ d.processRaw st raw = .ok (st', n) ∧ last = (st'.cur == 0) := by
  unfold ADirent.readSector at hr
  cases h1 : h.getRawBytes b st.cur with
  | error e => simp [h1] at hr
  | ok q =>
    obtain ⟨raw, p, k⟩ := q
    simp only [h1] at hr
    cases h2 : d.processRaw st raw with
    | error e => simp [h2] at hr
    | ok q2 =>
      obtain ⟨s2, n2⟩ := q2
      simp [h2] at hr
      obtain ⟨rfl, rfl, rfl, rfl⟩ := hr
      exact ⟨raw, k, rfl, h2, rfl⟩

/-- changing the image outside the sectors of a chain does not change the chain -/
theorem readLoop_frame {d : ADirent} {h : AHeader} {b b' : Bytes} : ∀ (fuel : Nat) (st : ReadSt) (l : List (Nat × Nat × Nat)),
    d.readLoop h b fuel st = .ok l → (∀ x ∈ l, h.getRawBytes b' x.1 = h.getRawBytes b x.1) →
    d.readLoop h b' fuel st = .ok l := by
  intro fuel
  induction fuel with
  | zero => intro st l hr; simp [ADirent.readLoop] at hr
  | succ fuel ih =>
    intro st l hr hx
    simp only [ADirent.readLoop] at hr ⊢
    cases h1 : d.readSector h b st with
    | error e => simp [h1] at hr
    | ok q =>
      obtain ⟨st', last, pos, n⟩ := q
      simp only [h1] at hr
      have key : ∀ x rest, l = x :: rest → x.1 = st.cur → d.readSector h b' st = .ok (st', last, pos, n) := by
        intro x rest hl hc
        have := hx x (by simp [hl])
        rw [hc] at this
        rw [← h1]
        unfold ADirent.readSector
        rw [this]
      cases last with
      | true =>
        simp at hr
        rw [key (st.cur, pos, n) [] (by rw [hr]) rfl]
        simpa using hr
      | false =>
        cases h2 : d.readLoop h b fuel st' with
        | error e => simp [h2] at hr
        | ok rest =>
          simp [h2] at hr
          rw [key (st.cur, pos, n) rest (by rw [hr]) rfl]
          simp only [Bool.false_eq_true, if_false]
          rw [ih st' rest h2 (fun x hm => hx x (by rw [← hr]; simp [hm]))]
          simpa using hr

theorem readLoop_pos {d : ADirent} {h : AHeader} {b : Bytes} {n : Nat} (g : h.Geom n) : ∀ (fuel : Nat) (st : ReadSt) (l : List (Nat × Nat × Nat)),
    d.readLoop h b fuel st = .ok l → l ≠ [] ∧ ∀ x ∈ l, h.DataSec x.1 → x.2.1 = h.dpos x.1 := by
  intro fuel
  induction fuel with
  | zero => intro st l hr; simp [ADirent.readLoop] at hr
  | succ fuel ih =>
    intro st l hr
    simp only [ADirent.readLoop] at hr
    cases h1 : d.readSector h b st with
    | error e => simp [h1] at hr
    | ok q =>
      obtain ⟨st', last, pos, n⟩ := q
      simp only [h1] at hr
      obtain ⟨raw, k, h3, _, _⟩ := readSector_ok h1
      have hcur : h.DataSec st.cur → pos = h.dpos st.cur := by
        intro hd
        rw [getRawBytes_data g hd] at h3
        simp at h3; exact h3.2.1.symm
      cases last with
      | true =>
        simp at hr; subst hr
        simpa using hcur
      | false =>
        cases h2 : d.readLoop h b fuel st' with
        | error e => simp [h2] at hr
        | ok rest =>
          simp [h2] at hr
          subst hr
          refine ⟨by simp, ?_⟩
          intro x hx
          rcases List.mem_cons.mp hx with rfl | hx
          · exact hcur
          · exact (ih st' rest h2).2 x hx

/-- more fuel does not change a finished run -/
theorem readLoop_fuel {d : ADirent} {h : AHeader} {b : Bytes} : ∀ (fuel k : Nat) (st : ReadSt),
    d.readLoop h b fuel st ≠ .error .hang → d.readLoop h b (fuel + k) st = d.readLoop h b fuel st := by
  intro fuel
  induction fuel with
  | zero => intro k st hr; simp [ADirent.readLoop] at hr
  | succ fuel ih =>
    intro k st hr
    rw [show fuel + 1 + k = (fuel + k) + 1 by omega]
    simp only [ADirent.readLoop] at hr ⊢
    cases h1 : d.readSector h b st with
    | error e => rfl
    | ok q =>
      obtain ⟨st', last, pos, n⟩ := q
      simp only [h1] at hr ⊢
      cases last with
      | true => rfl
      | false =>
        simp only [Bool.false_eq_true, if_false] at hr ⊢
        rw [ih k st' (by intro hh; simp [hh] at hr)]

/-- one round of a non-MyDOS read -/
theorem readSector_cases {d : ADirent} (hd : d.mydos = false) {h : AHeader} {b : Bytes} {n : Nat} (g : h.Geom n) (st : ReadSt) :
    (∃ e, d.readSector h b st = .error e ∧ (e = .byteNotInFile ∨ e = .fileNumberMismatch ∨ e = .invalidFile ∨ e = .indexError)) ∨
    (∃ st' pos k, d.readSector h b st = .ok (st', st'.cur == 0, pos, k) ∧ st'.seen = st.cur :: st.seen ∧
      st'.cur ∉ st'.seen ∧ 1 ≤ st.cur ∧ st.cur ≤ h.maxSectors) := by
  unfold ADirent.readSector
  cases hr : h.getRawBytes b st.cur with
  | error e => left; exact ⟨e, rfl, Or.inl (getRawBytes_error hr)⟩
  | ok q =>
    obtain ⟨raw, pos, k⟩ := q
    have hv := getRawBytes_ok g hr
    simp only
    unfold ADirent.processRaw
    by_cases hl : raw.length < 3
    · left; exact ⟨.indexError, by simp [hl], by simp⟩
    · simp only [hl, if_false, hd, Bool.false_eq_true]
      generalize (raw.getD (raw.length - 3) 0).toNat = r3
      generalize (raw.getD (raw.length - 2) 0).toNat = r2
      generalize (raw.getD (raw.length - 1) 0).toNat = r1
      by_cases hf : r3 / 4 ≠ d.fileNum
      · left; exact ⟨.fileNumberMismatch, by simp [hf], by simp⟩
      · simp only [hf, if_false]
        by_cases hc : (st.cur :: st.seen).contains (r3 % 4 * 256 + r2) = true
        · left; exact ⟨.invalidFile, by simp only [hc, if_true], by simp⟩
        · right
          simp only [hc]
          exact ⟨_, _, _, rfl, rfl, by simpa using hc, hv.1, hv.2⟩

/-- a non-MyDOS chain read never needs more than `maxSectors + 1` rounds -/
theorem readLoop_terminates {d : ADirent} (hd : d.mydos = false) {h : AHeader} {b : Bytes} {n : Nat} (g : h.Geom n) :
    ∀ (fuel : Nat) (st : ReadSt), st.seen.Nodup → (∀ s ∈ st.seen, 1 ≤ s ∧ s ≤ h.maxSectors) → st.cur ∉ st.seen →
    h.maxSectors + 1 ≤ fuel + st.seen.length →
    (∃ l, d.readLoop h b fuel st = .ok l ∧ l.length + st.seen.length ≤ h.maxSectors ∧ (l.map (·.1)).Nodup ∧
        (∀ x ∈ l, x.1 ∉ st.seen ∧ 1 ≤ x.1 ∧ x.1 ≤ h.maxSectors)) ∨
    (∃ e, d.readLoop h b fuel st = .error e ∧
      (e = .byteNotInFile ∨ e = .fileNumberMismatch ∨ e = .invalidFile ∨ e = .indexError)) := by
  intro fuel
  induction fuel with
  | zero =>
    intro st h1 h2 h3 h4
    exfalso
    have := nodup_length_le (h.maxSectors + 1) (0 :: st.seen) (List.nodup_cons.mpr ⟨fun hc => by have := h2 0 hc; omega, h1⟩) (by
      intro x hx
      rcases List.mem_cons.mp hx with rfl | hx
      · omega
      · have := h2 x hx; omega)
    simp at this; omega
  | succ fuel ih =>
    intro st h1 h2 h3 h4
    simp only [ADirent.readLoop]
    rcases readSector_cases hd g (b := b) st with ⟨e, he, hc⟩ | ⟨st', pos, k, hok, hs, hn, hv⟩
    · right; exact ⟨e, by simp [he], hc⟩
    · rw [hok]
      have hnd : (st.cur :: st.seen).Nodup := List.nodup_cons.mpr ⟨h3, h1⟩
      have hval : ∀ s ∈ st.cur :: st.seen, 1 ≤ s ∧ s ≤ h.maxSectors := by
        intro s hs
        rcases List.mem_cons.mp hs with rfl | hs
        · exact hv
        · exact h2 s hs
      have hbound := nodup_length_le (h.maxSectors + 1) (0 :: st.cur :: st.seen)
          (List.nodup_cons.mpr ⟨fun hc => by have := hval 0 hc; omega, hnd⟩) (by
            intro x hx
            rcases List.mem_cons.mp hx with rfl | hx
            · omega
            · have := hval x hx; omega)
      simp at hbound
      cases hl : (st'.cur == 0) with
      | true =>
        left
        refine ⟨[(st.cur, pos, k)], by simp, ?_, by simp, ?_⟩
        · simp; omega
        · intro x hx; simp at hx; subst hx; exact ⟨h3, hv⟩
      | false =>
        simp only [Bool.false_eq_true, if_false]
        rcases ih st' (by rw [hs]; exact hnd) (by rw [hs]; exact hval) hn (by rw [hs]; simp; omega) with
          ⟨l, hl1, hl2, hl3, hl4⟩ | ⟨e, he, hc⟩
        · left
          refine ⟨(st.cur, pos, k) :: l, by simp [hl1], ?_, ?_, ?_⟩
          · rw [hs] at hl2; simp at hl2 ⊢; omega
          · rw [List.map_cons, List.nodup_cons]
            refine ⟨?_, hl3⟩
            intro hm
            obtain ⟨x, hx, hxe⟩ := List.mem_map.mp hm
            have := (hl4 x hx).1
            rw [hs] at this
            simp only at hxe
            rw [hxe] at this
            simp at this
          · intro x hx
            rcases List.mem_cons.mp hx with rfl | hx
            · exact ⟨h3, hv⟩
            · have := hl4 x hx
              rw [hs] at this
              exact ⟨fun hm => this.1 (by simp [hm]), this.2⟩
        · right; exact ⟨e, by simp [he], hc⟩

/-! ### contents -/

theorem gather_flatMap (b : Bytes) : ∀ (l : List (Nat × Nat × Nat)), (∀ x ∈ l, x.2.1 + x.2.2 ≤ b.length) →
    gather b (byteOrder l) = .ok (l.flatMap fun x => slice b x.2.1 (x.2.1 + x.2.2)) := by
  intro l hl
  have h1 : (byteOrder l).all (· < b.length) = true := by
    rw [List.all_eq_true]
    intro i hi
    obtain ⟨x, hx, hi⟩ := List.mem_flatMap.mp hi
    rw [List.mem_range'_1] at hi
    have := hl x hx
    simp; omega
  rw [gather, if_pos h1]
  congr 1
  clear h1
  induction l with
  | nil => rfl
  | cons x l ih =>
    rw [byteOrder, List.flatMap_cons, List.map_append, List.flatMap_cons]
    congr 1
    · apply List.ext_getElem?
      intro k
      have := hl x (by simp)
      rw [getElem?_slice, List.getElem?_map]
      by_cases hk : k < x.2.2
      · rw [List.getElem?_range' hk]
        simp [hk]
        rw [List.getElem?_eq_getElem (by omega)]; rfl
      · rw [List.getElem?_eq_none (by simp; omega)]; simp [hk]
    · exact ih (fun y hy => hl y (by simp [hy]))

theorem slice_sec {h : AHeader} {b : Bytes} {s k : Nat} (hk : k ≤ h.sectorSize) :
    slice b (h.dpos s) (h.dpos s + k) = (sec h b s).take k := by
  apply List.ext_getElem?
  intro i
  rw [getElem?_slice, List.getElem?_take, sec, getElem?_slice]
  grind

/-! ### the chain of a freshly linked file -/

/-- what `setNextAtari` stores in a sector with `c` data bytes -/
theorem link_sector {ss fn next n : Nat} {c : Bytes} (hss : ss = 128 ∨ ss = 256) (hc : c.length ≤ ss - 3) (hfn : fn < 64) (hnext : next < 1024) :
    let w := ({ WSector.ofData ss c with num := n, fileNum := fn } : WSector).setNextAtari next
    w.num = n ∧ w.data.length = ss ∧ w.data.take c.length = c ∧
    (w.data.getD (ss - 3) 0).toNat / 4 = fn ∧
    (w.data.getD (ss - 3) 0).toNat % 4 * 256 + (w.data.getD (ss - 2) 0).toNat = next ∧
    (w.data.getD (ss - 1) 0).toNat = c.length := by
  obtain ⟨h1, h2, h3⟩ := ofData_data ss c (by omega)
  have hor : ∀ fn, fn < 64 → ∀ hi, hi < 4 → (fn <<< 2 ||| (hi &&& 3)) = 4 * fn + hi := by decide +kernel
  have hx := hor fn hfn (next / 256) (by omega)
  simp only [WSector.setNextAtari, h1, h2, h3, hx]
  have hl : (c ++ List.replicate (ss - c.length) 0).length = ss := by simp; omega
  refine ⟨trivial, by simp; omega, ?_, ?_, ?_, ?_⟩
  · apply List.ext_getElem?
    intro i
    rw [List.getElem?_take]
    split
    · rw [List.getElem?_set_ne (by omega), List.getElem?_set_ne (by omega), List.getElem?_set_ne (by omega),
        List.getElem?_append_left (by omega)]
    · rw [List.getElem?_eq_none (by omega)]
  all_goals
    have e1 : ss - 3 + 1 = ss - 2 := by omega
    have e2 : ss - 3 + 2 = ss - 1 := by omega
    simp only [e1, e2, List.getD_eq_getElem?_getD]
    generalize hz : c ++ List.replicate (ss - c.length) (0 : UInt8) = z at hl
  · rw [List.getElem?_set_ne (by omega), List.getElem?_set_ne (by omega), List.getElem?_set_self (by omega)]
    simp only [Option.getD_some, toNat_ofNat]; omega
  · rw [List.getElem?_set_ne (by omega), List.getElem?_set_ne (by omega), List.getElem?_set_self (by omega),
      List.getElem?_set_ne (by omega), List.getElem?_set_self (by simp; omega)]
    simp only [Option.getD_some, toNat_ofNat]; omega
  · rw [List.getElem?_set_self (by simp; omega)]
    simp only [Option.getD_some, toNat_ofNat]; omega

theorem linkSectors_length (f) (fn : Nat) : ∀ (ws : List WSector) (ns : List Nat), (linkSectors f fn ws ns).length = ws.length := by
  intro ws
  induction ws with
  | nil => intro ns; cases ns <;> simp [linkSectors]
  | cons w ws ih => intro ns; cases ns <;> simp [linkSectors, ih]

theorem linkSectors_cons (f) (fn : Nat) (s : WSector) (ss : List WSector) (n : Nat) (ns : List Nat) (hl : ss.length = ns.length) :
    linkSectors f fn (s :: ss) (n :: ns) =
      f { s with num := n, fileNum := fn } (ns.headD 0) :: linkSectors f fn ss ns := by
  match ss, ns, hl with
  | [], [], _ => rfl
  | _ :: _, _ :: _, _ => rfl

/-- sector numbers, sizes of a linked list of sectors -/
theorem linkSectors_nums {ss fn : Nat} (hss : ss = 128 ∨ ss = 256) (hfn : fn < 64) : ∀ (cs : List Bytes) (ns : List Nat),
    cs.length = ns.length → (∀ c ∈ cs, c.length ≤ ss - 3) → (∀ n ∈ ns, n < 1024) →
    let ws := linkSectors WSector.setNextAtari fn (cs.map (WSector.ofData ss)) ns
    ws.map (·.num) = ns ∧ ∀ w ∈ ws, w.data.length = ss := by
  intro cs
  induction cs with
  | nil => intro ns hl _ _; simp at hl; simp [linkSectors, show ns = [] from List.length_eq_zero_iff.mp hl.symm]
  | cons c cs ih =>
    intro ns hl hc hn
    match ns, hl with
    | n :: ns, hl =>
      obtain ⟨i1, i2⟩ := ih ns (by simpa using hl) (fun x hx => hc x (by simp [hx])) (fun x hx => hn x (by simp [hx]))
      have hl' : cs.length = ns.length := by simpa using hl
      have hnext : ns.headD 0 < 1024 := by
        cases ns with
        | nil => simp
        | cons m ns => exact hn m (by simp)
      simp only [List.map_cons]
      rw [linkSectors_cons _ _ _ _ _ _ (by simpa using hl')]
      have := link_sector (n := n) hss (hc c (by simp)) hfn hnext
      simp only at this
      refine ⟨?_, ?_⟩
      · rw [List.map_cons, this.1, i1]
      · intro w hw
        rcases List.mem_cons.mp hw with rfl | hw
        · exact this.2.1
        · exact i2 w hw

/-- sector numbers and sizes of linked sectors, without a bound on the file number -/
theorem linkSectors_nums' {ss fn : Nat} (hss : 3 ≤ ss) : ∀ (cs : List Bytes) (ns : List Nat),
    cs.length = ns.length → (∀ c ∈ cs, c.length ≤ ss - 3) →
    let ws := linkSectors WSector.setNextAtari fn (cs.map (WSector.ofData ss)) ns
    ws.map (·.num) = ns ∧ ∀ w ∈ ws, w.data.length = ss := by
  intro cs
  induction cs with
  | nil => intro ns hl _; simp at hl; simp [linkSectors, show ns = [] from List.length_eq_zero_iff.mp hl.symm]
  | cons c cs ih =>
    intro ns hl hc
    match ns, hl with
    | n :: ns, hl =>
      obtain ⟨i1, i2⟩ := ih ns (by simpa using hl) (fun x hx => hc x (by simp [hx]))
      have hl' : cs.length = ns.length := by simpa using hl
      simp only [List.map_cons]
      rw [linkSectors_cons _ _ _ _ _ _ (by simpa using hl')]
      obtain ⟨h1, h2, h3⟩ := ofData_data ss c (by have := hc c (by simp); omega)
      refine ⟨?_, ?_⟩
      · rw [List.map_cons, i1]; rfl
      · intro w hw
        rcases List.mem_cons.mp hw with rfl | hw
        · simp only [WSector.setNextAtari, h1, List.length_set, List.length_append, List.length_replicate]
          have := hc c (by simp); omega
        · exact i2 w hw

/-- Reading the chain of a freshly linked list of sectors. -/
theorem readLoop_linked {d : ADirent} (hm : d.mydos = false) (hfn : d.fileNum < 64) {h : AHeader} {b : Bytes} (g : h.Geom b.length)
    (hss : h.sectorSize = 128 ∨ h.sectorSize = 256) : ∀ (cs : List Bytes) (ns : List Nat) (seen : List Nat) (fuel : Nat),
    cs.length = ns.length → (∀ c ∈ cs, c.length ≤ h.sectorSize - 3) → (∀ n ∈ ns, n < 1024 ∧ 0 < n ∧ h.DataSec n) → ns.Nodup →
    (∀ n ∈ ns, n ∉ seen) → 0 ∉ seen → ns.length ≤ fuel → ns ≠ [] →
    (∀ w ∈ linkSectors WSector.setNextAtari d.fileNum (cs.map (WSector.ofData h.sectorSize)) ns, sec h b w.num = w.data) →
    d.readLoop h b fuel { cur := ns.headD 0, seen := seen } =
      .ok ((ns.zip cs).map fun x => (x.1, h.dpos x.1, x.2.length)) ∧
    ∀ x ∈ ns.zip cs, (sec h b x.1).take x.2.length = x.2 := by
  intro cs
  induction cs with
  | nil => intro ns _ _ hl _ _ _ _ _ _ hne _; simp at hl; exact absurd (List.length_eq_zero_iff.mp hl.symm) hne
  | cons c cs ih =>
    intro ns seen fuel hl hc hn hnd hseen h0 hfuel _ hw
    match ns, hl, fuel, hfuel with
    | n :: ns, hl, fuel + 1, hfuel =>
      rw [List.map_cons, linkSectors_cons _ _ _ _ _ _ (by simpa using hl)] at hw
      have hd := (hn n (by simp)).2.2
      have hnd' := List.nodup_cons.mp hnd
      have hnext : ns.headD 0 < 1024 := by
        cases ns with
        | nil => simp
        | cons m ns => exact (hn m (by simp)).1
      obtain ⟨l1, l2, l3, l4, l5, l6⟩ := link_sector (n := n) hss (hc c (by simp)) hfn hnext
      have hsec := hw _ List.mem_cons_self
      rw [l1] at hsec
      simp only [← hsec] at l2 l3 l4 l5 l6
      have hraw := getRawBytes_data (b := b) g hd
      have hproc : d.processRaw ⟨n, seen⟩ (sec h b n) = .ok (⟨ns.headD 0, n :: seen⟩, c.length) := by
        unfold ADirent.processRaw
        simp only [l2, hm, Bool.false_eq_true, if_false, l4, l5, l6]
        rw [if_neg (by rcases hss with h | h <;> omega), if_neg (by simp), if_neg]
        rw [List.contains_iff_mem]
        intro hmem
        cases ns with
        | nil =>
          simp at hmem
          have := (hn n (by simp)).2.1
          rcases hmem with h | h
          · omega
          · exact h0 h
        | cons m ns =>
          simp at hmem
          rcases hmem with h | h
          · exact hnd'.1 (by simp [h])
          · exact hseen m (by simp) h
      have hrs : d.readSector h b ⟨n, seen⟩ = .ok (⟨ns.headD 0, n :: seen⟩, ns.headD 0 == 0, h.dpos n, c.length) := by
        simp [ADirent.readSector, hraw, hproc]
      simp only [List.headD_cons, ADirent.readLoop, hrs]
      match cs, ns, hl with
      | [], [], _ =>
        refine ⟨by simp, ?_⟩
        intro x hx
        simp at hx
        rw [hx]; exact l3
      | c2 :: cs, n2 :: ns, hl =>
        have hn2 : n2 ≠ 0 := by have := (hn n2 (by simp)).2.1; omega
        obtain ⟨j1, j2⟩ := ih (n2 :: ns) (n :: seen) fuel (by simpa using hl) (fun x hx => hc x (List.mem_cons_of_mem _ hx))
          (fun x hx => hn x (List.mem_cons_of_mem _ hx)) hnd'.2
          (by
            intro x hx hxm
            rcases List.mem_cons.mp hxm with rfl | hxm
            · exact hnd'.1 hx
            · exact hseen x (List.mem_cons_of_mem _ hx) hxm)
          (by
            intro hxm
            rcases List.mem_cons.mp hxm with hh | hxm
            · have := (hn n (by simp)).2.1; omega
            · exact h0 hxm)
          (by simp at hfuel ⊢; omega) (by simp)
          (fun w hx => hw w (List.mem_cons_of_mem _ hx))
        simp only [List.headD_cons] at j1 ⊢
        refine ⟨by simp [hn2, j1], ?_⟩
        intro x hx
        simp only [List.zip_cons_cons] at hx
        rcases List.mem_cons.mp hx with rfl | hx
        · exact l3
        · exact j2 x (by simpa using hx)

theorem flatMap_zip_snd {α β γ : Type} (f : α → β → List γ) (k : β → List γ) : ∀ (as : List α) (bs : List β), as.length = bs.length →
    (∀ x ∈ as.zip bs, f x.1 x.2 = k x.2) → (as.zip bs).flatMap (fun x => f x.1 x.2) = bs.flatMap k := by
  intro as
  induction as with
  | nil => intro bs hl _; simp at hl; simp [List.length_eq_zero_iff.mp hl.symm]
  | cons a as ih =>
    intro bs hl hf
    match bs, hl with
    | b :: bs, hl =>
      simp only [List.zip_cons_cons, List.flatMap_cons]
      rw [ih bs (by simpa using hl) (fun x hx => hf x (by simp [hx])), hf (a, b) (by simp)]

end Atr
