import Verif.Props.Dos33WriteAny
import Verif.Props.Dos33Text
/-!
# C115: DOS 3.3 finds the files by their names

Adding or removing a file rewrites the names of all entries as they were read.  Reading drops the 30th character and all characters
without the high bit.
-/
namespace Atr

/-- the first `n` entries of the catalog are in use or marked as deleted, the others have track 0 and type 0 -/
structure PlainCat33 (b : Bytes) (cs : List Nat) (n : Nat) : Prop where
  le : n ≤ 7 * cs.length
  track : ∀ t, t < n → byteOf b (slotPos33 cs t) ≠ 0
  type : ∀ t, t < n → byteOf b (slotPos33 cs t) = 255 ∨ byteOf b (slotPos33 cs t + 2) ≠ 0
  rest : ∀ t, n ≤ t → t < 7 * cs.length → byteOf b (slotPos33 cs t) = 0 ∧ byteOf b (slotPos33 cs t + 2) = 0

/-- a name of at most 29 characters that does not end with a blank, padded with blanks -/
def PlainName33 (x : Bytes) : Prop := ∃ n : Bytes, x = dosName33 n ∧ n.length ≤ 29 ∧ (∀ c ∈ n, c < 0x80) ∧ rstripWs n = n

/-! ### the entries that DOS looks at -/

theorem entries_slots : ∀ (cs : List Nat), cs.flatMap entryPos33 = (List.range (7 * cs.length)).map (slotPos33 cs) := by
  intro cs
  induction cs with
  | nil => rfl
  | cons c cs ih =>
    rw [List.flatMap_cons, ih, List.length_cons, show 7 * (cs.length + 1) = 7 + 7 * cs.length by omega, List.range_add, List.map_append, List.map_map]
    have h1 : entryPos33 c = (List.range 7).map (slotPos33 (c :: cs)) :=
      List.map_congr_left fun i hi => (slotPos33_head c cs (List.mem_range.mp hi)).symm
    rw [h1]
    congr 1
    exact List.map_congr_left fun t _ => (slotPos33_cons c cs t).symm

theorem dosSeen_slots {b : Bytes} {cs : List Nat} {n : Nat} (hn : n ≤ 7 * cs.length) (h1 : ∀ t, t < n → byteOf b (slotPos33 cs t) ≠ 0)
    (h2 : n < 7 * cs.length → byteOf b (slotPos33 cs n) = 0) : dosSeen33 b cs = (List.range n).map (slotPos33 cs) := by
  unfold dosSeen33
  rw [entries_slots, List.takeWhile_map, List.range_eq_range', List.range_eq_range']
  congr 1
  refine takeWhile_range n 0 (fun i hi => ?_) hn (fun hlt => ?_)
  · simpa using h1 i hi
  · simpa using h2 hlt

theorem PlainCat33.seen {b : Bytes} {cs : List Nat} {n : Nat} (h : PlainCat33 b cs n) : catSeen33 b cs = (List.range n).map (slotPos33 cs) := by
  have hle := h.le
  rw [seen_packed cs n (by omega)
    (fun t ht => by
      unfold lastEntry33
      rcases h.type t ht with h | h
      · rw [h]; rfl
      · simp [h])
    (fun t h1 h2 => by
      obtain ⟨a, b⟩ := h.rest t h1 (by omega)
      unfold lastEntry33
      rw [a, b]; rfl)]
  have : (cs.drop ((n + 6) / 7)).flatMap (seenEntries33 b) = [] := by
    rw [List.flatMap_eq_nil_iff]
    intro x hx
    obtain ⟨j, hj⟩ := List.getElem?_of_mem hx
    rw [List.getElem?_drop] at hj
    obtain ⟨hl, hj'⟩ := List.getElem?_eq_some_iff.mp hj
    obtain ⟨a, b⟩ := h.rest (7 * ((n + 6) / 7 + j)) (by omega) (by omega)
    have hpos : slotPos33 cs (7 * ((n + 6) / 7 + j)) = 256 * x + 11 := by
      unfold slotPos33
      rw [Nat.mul_div_cancel_left _ (by omega), Nat.mul_mod_right, List.getD_eq_getElem?_getD, hj]
      rfl
    rw [hpos] at a b
    unfold seenEntries33 entryPos33
    rw [List.range_succ_eq_map, List.map_cons, List.takeWhile_cons, if_neg]
    unfold lastEntry33
    rw [Nat.mul_zero, Nat.add_zero, a, b]
    decide
  rw [this, List.append_nil]

theorem PlainCat33.dosSeen {b : Bytes} {cs : List Nat} {n : Nat} (h : PlainCat33 b cs n) : dosSeen33 b cs = (List.range n).map (slotPos33 cs) :=
  dosSeen_slots h.le h.track (fun hlt => (h.rest n (Nat.le_refl _) hlt).1)

theorem later_byte {b b' : Bytes} {cs : List Nat} {slots} (h : Packed33 b b' cs slots) {t i : Nat}
    (h2 : 7 * ((slots.length + 6) / 7) ≤ t) (h3 : t < 7 * cs.length) (hi : i < 35) : byteOf b' (slotPos33 cs t + i) = byteOf b (slotPos33 cs t + i) := by
  have hl : t / 7 < cs.length := by omega
  have hx : cs[t / 7]? = some (cs.getD (t / 7) 0) := by rw [List.getD_eq_getElem?_getD, List.getElem?_eq_getElem hl]; rfl
  have hs := h.later (t / 7) _ (by omega) hx
  have hm : t % 7 < 7 := Nat.mod_lt _ (by omega)
  have : ((sec33 b' (cs.getD (t / 7) 0)).getD (11 + 35 * (t % 7) + i) 0).toNat = ((sec33 b (cs.getD (t / 7) 0)).getD (11 + 35 * (t % 7) + i) 0).toNat := by rw [hs]
  rw [getD_sec33 (by omega), getD_sec33 (by omega)] at this
  unfold byteOf slotPos33
  rw [show 256 * cs.getD (t / 7) 0 + 11 + 35 * (t % 7) + i = 256 * cs.getD (t / 7) 0 + (11 + 35 * (t % 7) + i) by omega]
  exact this

theorem zero_byte {b b' : Bytes} {cs : List Nat} {slots} (h : Packed33 b b' cs slots) {t i : Nat} (h1 : slots.length ≤ t)
    (h2 : t < 7 * ((slots.length + 6) / 7)) (hi : i < 35) : byteOf b' (slotPos33 cs t + i) = 0 := by
  have hz := h.zero t h1 h2
  unfold byteOf
  rw [← slice_getD (b := b') (p := slotPos33 cs t) (j := i) (k := slotPos33 cs t + 35) (by omega), hz, List.getD_eq_getElem?_getD,
    List.getElem?_replicate, if_pos hi]
  rfl

/-- behind the entries there are unused ones, as before -/
theorem packed_rest {b b' : Bytes} {cs : List Nat} {slots} {n : Nat} (h : Packed33 b b' cs slots) (hp : PlainCat33 b cs n) (hn : n ≤ slots.length)
    {t : Nat} (h1 : slots.length ≤ t) (h2 : t < 7 * cs.length) : byteOf b' (slotPos33 cs t) = 0 ∧ byteOf b' (slotPos33 cs t + 2) = 0 := by
  rcases Nat.lt_or_ge t (7 * ((slots.length + 6) / 7)) with hz | hz
  · exact ⟨zero_byte h (i := 0) h1 hz (by omega), zero_byte h h1 hz (by omega)⟩
  · have hr := hp.rest t (by omega) h2
    exact ⟨(later_byte h (i := 0) hz h2 (by omega)).trans hr.1, (later_byte h hz h2 (by omega)).trans hr.2⟩

theorem slot_at {b b' : Bytes} {cs : List Nat} {slots} (h : Packed33 b b' cs slots) {t : Nat} (ht : t < slots.length) :
    (slots[t]? = some none ∧ byteOf b' (slotPos33 cs t) = 255) ∨ ∃ f, slots[t]? = some (some f) ∧ byteOf b' (slotPos33 cs t) ≠ 255 ∧
      byteOf b' (slotPos33 cs t) = f.track ∧ 16 * byteOf b' (slotPos33 cs t) + byteOf b' (slotPos33 cs t + 1) = f.first ∧
      byteOf b' (slotPos33 cs t + 2) % 128 = f.ftype := by
  have hg := List.getElem?_eq_getElem ht
  have hs := h.slot t _ hg
  generalize slots[t] = x at hg hs
  cases x with
  | none => exact Or.inl ⟨hg, hs⟩
  | some f =>
    obtain ⟨h1, h2⟩ := hs
    exact Or.inr ⟨f, hg, h1, congrArg FileInfo33.track h2, congrArg FileInfo33.first h2, congrArg FileInfo33.ftype h2⟩

theorem packed_dosSeen {b b' : Bytes} {cs : List Nat} {slots} {n : Nat} (h : Packed33 b b' cs slots) (hp : PlainCat33 b cs n) (hn : n ≤ slots.length)
    (ht : ∀ f, some f ∈ slots → f.track ≠ 0) : dosSeen33 b' cs = (List.range slots.length).map (slotPos33 cs) := by
  have hr := h.room
  refine dosSeen_slots (by omega) (fun t htl => ?_) (fun hlt => (packed_rest h hp hn (Nat.le_refl _) hlt).1)
  rcases slot_at h htl with ⟨_, h1⟩ | ⟨f, h1, _, h2, _⟩
  · omega
  · rw [h2]; exact ht f (List.mem_of_getElem? h1)

theorem packed_plain {b b' : Bytes} {cs : List Nat} {slots} {n : Nat} (h : Packed33 b b' cs slots) (hp : PlainCat33 b cs n) (hn : n ≤ slots.length)
    (ht : ∀ f, some f ∈ slots → f.track ≠ 0 ∧ f.ftype ≠ 0) : PlainCat33 b' cs slots.length := by
  have hr := h.room
  refine ⟨by omega, fun t htl => ?_, fun t htl => ?_, fun t h1 h2 => packed_rest h hp hn h1 h2⟩
  · rcases slot_at h htl with ⟨_, h1⟩ | ⟨f, h1, _, h2, _⟩
    · omega
    · rw [h2]; exact (ht f (List.mem_of_getElem? h1)).1
  · rcases slot_at h htl with ⟨_, h1⟩ | ⟨f, h1, _, _, _, h2⟩
    · exact Or.inl h1
    · have := (ht f (List.mem_of_getElem? h1)).2
      exact Or.inr (by omega)

/-! ### names -/

theorem dosName33_length {n : Bytes} (h : n.length ≤ 30) : (dosName33 n).length = 30 := by
  unfold dosName33
  rw [List.length_append, List.length_map, List.length_replicate]
  omega

/-- a name that was read has its 30th character blank when it is written -/
theorem dosName33_last {n : Bytes} (h : n.length ≤ 29) : (dosName33 n).getD 29 0 = 0xa0 := by
  unfold dosName33
  rw [List.getD_eq_getElem?_getD, List.getElem?_append_right (by rw [List.length_map]; exact h), List.length_map, List.getElem?_replicate,
    if_pos (by omega)]
  rfl

theorem or80_high (c : UInt8) : ¬ (c ||| 0x80) < 0x80 := by
  have : ∀ n, n < 256 → ¬ (UInt8.ofNat n ||| 0x80) < 0x80 := by decide +kernel
  exact UInt8.forall_ofNat (P := fun c => ¬ (c ||| 0x80) < 0x80) this c

theorem dosName33_high {n : Bytes} {i : Nat} (hi : i < 30) (h : n.length ≤ 30) : ¬ (dosName33 n).getD i 0 < 0x80 := by
  have hl := dosName33_length h
  rw [List.getD_eq_getElem?_getD, List.getElem?_eq_getElem (by omega)]
  have hm : (dosName33 n)[i] ∈ dosName33 n := List.getElem_mem _
  generalize (dosName33 n)[i] = c at hm
  unfold dosName33 at hm
  rcases List.mem_append.mp hm with hm | hm
  · obtain ⟨d, _, rfl⟩ := List.mem_map.mp hm
    exact or80_high d
  · rw [(List.mem_replicate.mp hm).2]
    decide

theorem info_name_le (b : Bytes) (p : Nat) : (fileInfo33 b p).name.length ≤ 29 := by
  have := (entryAt33_encodable 560 b 0 p).2
  rwa [parseName_info] at this

theorem plain_info {b n : Bytes} {p : Nat} (h1 : nameField33 b p = dosName33 n) (h2 : n.length ≤ 29) (h3 : ∀ c ∈ n, c < 0x80) (h4 : rstripWs n = n) :
    (fileInfo33 b p).name = n := by
  have hs : slice b (p + 3) (p + 32) = n.map (· ||| 0x80) ++ List.replicate (29 - n.length) 0xa0 := by
    have : slice b (p + 3) (p + 32) = (nameField33 b p).take 29 := by
      have := slice_slice b (p + 3) (p + 33) 0 29
      rw [show min (p + 33) (p + 3 + 29) = p + 32 by omega] at this
      exact this.symm
    rw [this, h1]
    unfold dosName33
    rw [List.take_append, List.length_map, List.take_of_length_le (by rw [List.length_map]; exact h2), List.take_replicate]
    congr 2
    omega
  unfold fileInfo33
  simp only
  rw [hs, List.map_append, List.map_map, List.map_replicate, show (0xa0 : UInt8) - 0x80 = 32 from rfl, rstripWs_spaces]
  have : n.map ((· - 0x80) ∘ (· ||| 0x80)) = n := by
    refine (List.map_congr_left (g := id) fun c hc => or80_sub80 c (h3 c hc)).trans (List.map_id _)
  rw [this, h4]
  exact List.filter_eq_self.mpr (fun c hc => by simpa using h3 c hc)

theorem plain_name {b : Bytes} {p : Nat} (h : PlainName33 (nameField33 b p)) : dosName33 (fileInfo33 b p).name = nameField33 b p := by
  obtain ⟨n, h1, h2, h3, h4⟩ := h
  rw [plain_info h1 h2 h3 h4, h1]

/-! ### looking up -/

/-- the entry at `p` is that of the file `x` -/
def isFile33 (b : Bytes) (x : Bytes) (p : Nat) : Bool := decide (byteOf b p < 128) && decide (nameField33 b p = x)

theorem lookup_slots {b : Bytes} {cs : List Nat} {n : Nat} (h : dosSeen33 b cs = (List.range n).map (slotPos33 cs)) (x : Bytes) :
    dosLookup33 b cs x = ((List.range n).find? fun t => isFile33 b x (slotPos33 cs t)).map fun t =>
      16 * byteOf b (slotPos33 cs t) + byteOf b (slotPos33 cs t + 1) := by
  unfold dosLookup33
  rw [h, List.find?_map, Option.map_map]
  rfl

theorem find_agree {P Q : Nat → Bool} {f g : Nat → Nat} : ∀ (l : List Nat), (∀ t ∈ l, P t = Q t) → (∀ t ∈ l, Q t = true → f t = g t) →
    (l.find? P).map f = (l.find? Q).map g := by
  intro l
  induction l with
  | nil => intro _ _; rfl
  | cons a l ih =>
    intro h1 h2
    rw [List.find?_cons, List.find?_cons, h1 a (by simp)]
    cases hq : Q a with
    | true => exact congrArg some (h2 a (by simp) hq)
    | false => exact ih (fun t ht => h1 t (by simp [ht])) (fun t ht => h2 t (by simp [ht]))

/-- an entry that is kept is found by the same name, at the same place -/
theorem kept_slot {b b' : Bytes} {cs : List Nat} {slots} (h : Packed33 b b' cs slots) {t : Nat} (ht : slots[t]? = some (kept33 b (slotPos33 cs t)))
    (hname : byteOf b (slotPos33 cs t) ≠ 255 → nameField33 b' (slotPos33 cs t) = nameField33 b (slotPos33 cs t)) (x : Bytes) :
    isFile33 b' x (slotPos33 cs t) = isFile33 b x (slotPos33 cs t) ∧ (isFile33 b x (slotPos33 cs t) = true →
      16 * byteOf b' (slotPos33 cs t) + byteOf b' (slotPos33 cs t + 1) = 16 * byteOf b (slotPos33 cs t) + byteOf b (slotPos33 cs t + 1)) := by
  unfold kept33 at ht
  by_cases hd : byteOf b (slotPos33 cs t) = 255
  · rw [if_pos hd] at ht
    have h' : byteOf b' (slotPos33 cs t) = 255 := h.slot t none ht
    unfold isFile33
    rw [hd, h']
    exact ⟨rfl, fun h => by cases h⟩
  · rw [if_neg hd] at ht
    obtain ⟨h1, h2⟩ := h.slot t _ ht
    have ht' : byteOf b' (slotPos33 cs t) = byteOf b (slotPos33 cs t) := congrArg FileInfo33.track h2
    have hf : 16 * byteOf b' (slotPos33 cs t) + byteOf b' (slotPos33 cs t + 1) = _ := congrArg FileInfo33.first h2
    unfold isFile33
    rw [ht', hname hd]
    rw [ht'] at hf
    exact ⟨rfl, fun _ => hf⟩

theorem getElem?_seen {b : Bytes} {cs : List Nat} {n : Nat} (h : PlainCat33 b cs n) {t : Nat} (ht : t < n) :
    (catSeen33 b cs)[t]? = some (slotPos33 cs t) := by
  rw [h.seen, List.getElem?_map, List.getElem?_range ht]
  rfl

theorem seen_slot {b : Bytes} {cs : List Nat} {n : Nat} (h : PlainCat33 b cs n) {t q : Nat} (ht : (catSeen33 b cs)[t]? = some q) :
    t < n ∧ q = slotPos33 cs t := by
  have hl := (List.getElem?_eq_some_iff.mp ht).1
  have hn : t < n := by rw [h.seen] at hl; simpa using hl
  rw [getElem?_seen h hn] at ht
  injection ht with ht
  exact ⟨hn, ht.symm⟩

theorem kept_track {b : Bytes} {cs : List Nat} {n : Nat} (h : PlainCat33 b cs n) {f : FileInfo33}
    (hf : some f ∈ (catSeen33 b cs).map (kept33 b)) : f.track ≠ 0 := by
  obtain ⟨q, hq, hk⟩ := List.mem_map.mp hf
  obtain ⟨t, ht⟩ := List.getElem?_of_mem hq
  obtain ⟨h1, rfl⟩ := seen_slot h ht
  unfold kept33 at hk
  split at hk
  · cases hk
  · injection hk with hk
    rw [← hk]
    exact h.track t h1

theorem write_named {b : Bytes} {cs : List Nat} {m m' : DImg} {name data : Bytes} {ftype n : Nat} (hm : DImg.open b = .ok m)
    (v : Volume33 b cs) (hv : 272 ∉ cs) (hn : sectors33 b = 560) (hcs : cs ≠ []) (hfree : ∀ x ∈ cs, ¬ IsFree33 b x) (hft : ftype < 128)
    (pc : PlainCat33 b cs n) (hlow : ∀ s, IsFree33 b s → 16 ≤ s) (h : DImg.writeFile name ftype data m = (.ok (), m')) :
    ∃ i f slots, i ≤ n ∧ (i < n → byteOf b (slotPos33 cs i) = 255) ∧ slots.length = max n (i + 1) ∧ slots[i]? = some (some f) ∧
      (∀ t, t < n → t ≠ i → slots[t]? = some (kept33 b (slotPos33 cs t))) ∧ Packed33 b m'.bytes cs slots ∧
      f.first < 800 ∧ f.track = f.first / 16 ∧ f.ftype = ftype ∧ IsFree33 b f.first ∧ (∀ g, some g ∈ slots → g.track ≠ 0) ∧
      nameField33 m'.bytes (slotPos33 cs i) = dosName33 (name.take 30) ∧
      ∀ t, t < n → t ≠ i → byteOf b (slotPos33 cs t) ≠ 255 →
        nameField33 m'.bytes (slotPos33 cs t) = dosName33 (fileInfo33 b (slotPos33 cs t)).name := by
  obtain ⟨m1, hb1, hb2⟩ := transaction33_success h
  rw [hb2]
  obtain ⟨i, f, h1, h2, h3, h4, h5, h6, h7, h8, h9, _, h10, h11⟩ := writeBody_named hm v hv hn hcs hfree hft hb1
  have hlen : (catSeen33 b cs).length = n := by rw [pc.seen, List.length_map, List.length_range]
  rw [hlen] at h1
  have hml : ((catSeen33 b cs).map (kept33 b)).length = n := by rw [List.length_map, hlen]
  have hmg : ∀ t, t < n → ((catSeen33 b cs).map (kept33 b))[t]? = some (kept33 b (slotPos33 cs t)) := by
    intro t ht
    rw [List.getElem?_map, getElem?_seen pc ht]
    rfl
  have htr : ∀ g, some g ∈ (catSeen33 b cs).map (kept33 b) → g.track ≠ 0 := fun g hg => kept_track pc hg
  generalize (catSeen33 b cs).map (kept33 b) = ks at h8 hml hmg htr
  have htl : (ks.take i).length = i := by rw [List.length_take]; omega
  refine ⟨i, f, _, h1, fun hi => h2 _ (getElem?_seen pc hi), ?_, ?_, ?_, h8, h7.1, h9, h5, h7, ?_, h10,
    fun t ht hti hl => h11 t _ hti (getElem?_seen pc ht) hl⟩
  · rw [List.length_append, List.length_cons, htl, List.length_drop]
    omega
  · rw [List.getElem?_append_right (by omega), htl, Nat.sub_self]
    rfl
  · intro t ht hti
    rw [← hmg t ht]
    rcases Nat.lt_or_ge t i with hlt | hge
    · rw [List.getElem?_append_left (by omega), List.getElem?_take, if_pos hlt]
    · rw [List.getElem?_append_right (by omega), htl, show t - i = (t - i - 1) + 1 by omega, List.getElem?_cons_succ,
        List.getElem?_drop, show i + 1 + (t - i - 1) = t by omega]
  · intro g hg
    rcases List.mem_append.mp hg with hg | hg
    · exact htr g (List.mem_of_mem_take hg)
    · rcases List.mem_cons.mp hg with hg | hg
      · injection hg with hg
        rw [hg, h9]
        have := hlow _ h7
        omega
      · exact htr g (List.mem_of_mem_drop hg)

/-- **C115 (refuted), removing.** Once a file was removed, DOS 3.3 finds no file whose name has 30 characters or a character without
the high bit (inverse or flashing). -/
theorem C115_refuted_remove {b : Bytes} {cs : List Nat} {m m' : DImg} {name : Bytes} {n : Nat} (hm : DImg.open b = .ok m) (v : Volume33 b cs)
    (hv : 272 ∉ cs) (hn : sectors33 b = 560) (pc : PlainCat33 b cs n) (h : DImg.deleteFile name m = (.ok (), m')) {x : Bytes}
    (hx : x.getD 29 0 ≠ 0xa0 ∨ ∃ i, i < 30 ∧ x.getD i 0 < 0x80) : dosLookup33 m'.bytes cs x = none := by
  obtain ⟨i, p, h1, h2, h3, h4, h5⟩ := delete_named hm v hv hn h
  have hml : (((catSeen33 b cs).map (kept33 b)).set i none).length = n := by
    rw [List.length_set, List.length_map, pc.seen, List.length_map, List.length_range]
  have hseen := packed_dosSeen h4 pc (by omega) (fun f hf => by
    rcases List.mem_or_eq_of_mem_set hf with hf | hf
    · exact kept_track pc hf
    · cases hf)
  rw [hml] at hseen
  rw [lookup_slots hseen, Option.map_eq_none_iff, List.find?_eq_none]
  intro t ht hf
  have ht := List.mem_range.mp ht
  unfold isFile33 at hf
  obtain ⟨hf1, hf2⟩ := (Bool.and_eq_true _ _).mp hf
  have hf1 := of_decide_eq_true hf1
  have hf2 := of_decide_eq_true hf2
  have hseen := getElem?_seen pc ht
  by_cases hti : t = i
  · have : byteOf m'.bytes (slotPos33 cs t) = 255 := h4.slot t none (by
      rw [hti, List.getElem?_set_self (by rw [List.length_map]; exact (List.getElem?_eq_some_iff.mp h1).1)])
    omega
  · by_cases hd : byteOf b (slotPos33 cs t) = 255
    · have : byteOf m'.bytes (slotPos33 cs t) = 255 := h4.slot t none (by
        rw [List.getElem?_set_ne (fun h => hti h.symm), List.getElem?_map, hseen, Option.map_some, kept33, if_pos hd])
      omega
    · rw [h5 t _ hti hseen hd] at hf2
      have hl := info_name_le b (slotPos33 cs t)
      rcases hx with hx | ⟨k, hk, hx⟩
      · rw [← hf2] at hx
        exact hx (dosName33_last hl)
      · rw [← hf2] at hx
        exact dosName33_high hk (by omega) hx

/-- **C115 (refuted), adding.** The same once another file was added. -/
theorem C115_refuted_add {b : Bytes} {cs : List Nat} {m m' : DImg} {name data : Bytes} {ftype n : Nat} (hm : DImg.open b = .ok m)
    (v : Volume33 b cs) (hv : 272 ∉ cs) (hn : sectors33 b = 560) (hcs : cs ≠ []) (hfree : ∀ x ∈ cs, ¬ IsFree33 b x) (hft : ftype < 128)
    (pc : PlainCat33 b cs n) (hlow : ∀ s, IsFree33 b s → 16 ≤ s) (h : DImg.writeFile name ftype data m = (.ok (), m')) {x : Bytes}
    (hx : x.getD 29 0 ≠ 0xa0 ∨ ∃ i, i < 30 ∧ x.getD i 0 < 0x80) (hne : x ≠ dosName33 (name.take 30)) : dosLookup33 m'.bytes cs x = none := by
  obtain ⟨i, f, slots, h1, h2, h3, h4, h5, h6, h7, h8, _, _, h9, h10, h11⟩ := write_named hm v hv hn hcs hfree hft pc hlow h
  have hseen := packed_dosSeen h6 pc (by omega) h9
  rw [lookup_slots hseen, Option.map_eq_none_iff, List.find?_eq_none]
  intro t ht hf
  have ht := List.mem_range.mp ht
  unfold isFile33 at hf
  obtain ⟨hf1, hf2⟩ := (Bool.and_eq_true _ _).mp hf
  have hf1 := of_decide_eq_true hf1
  have hf2 := of_decide_eq_true hf2
  by_cases hti : t = i
  · rw [hti, h10] at hf2
    exact hne hf2.symm
  · have htn : t < n := by omega
    by_cases hd : byteOf b (slotPos33 cs t) = 255
    · have : byteOf m'.bytes (slotPos33 cs t) = 255 := h6.slot t none (by rw [h5 t htn hti, kept33, if_pos hd])
      omega
    · rw [h11 t htn hti hd] at hf2
      have hl := info_name_le b (slotPos33 cs t)
      rcases hx with hx | ⟨k, hk, hx⟩
      · rw [← hf2] at hx
        exact hx (dosName33_last hl)
      · rw [← hf2] at hx
        exact dosName33_high hk (by omega) hx

/-- **C115, removing: what holds.** If all names have at most 29 characters and these have the high bit, DOS 3.3 finds every other
file where it found it before. -/
theorem C115_removed_partial {b : Bytes} {cs : List Nat} {m m' : DImg} {name : Bytes} {n : Nat} (hm : DImg.open b = .ok m) (v : Volume33 b cs)
    (hv : 272 ∉ cs) (hn : sectors33 b = 560) (pc : PlainCat33 b cs n)
    (hp : ∀ p ∈ catSeen33 b cs, byteOf b p ≠ 255 → PlainName33 (nameField33 b p)) (h : DImg.deleteFile name m = (.ok (), m')) {x : Bytes}
    (hx : x ≠ dosName33 name) : dosLookup33 m'.bytes cs x = dosLookup33 b cs x := by
  obtain ⟨i, p, h1, h2, h3, h4, h5⟩ := delete_named hm v hv hn h
  have hml : (((catSeen33 b cs).map (kept33 b)).set i none).length = n := by
    rw [List.length_set, List.length_map, pc.seen, List.length_map, List.length_range]
  have hseen := packed_dosSeen h4 pc (by omega) (fun f hf => by
    rcases List.mem_or_eq_of_mem_set hf with hf | hf
    · exact kept_track pc hf
    · cases hf)
  rw [hml] at hseen
  rw [lookup_slots hseen, lookup_slots pc.dosSeen]
  have hall : ∀ t, t < n → isFile33 m'.bytes x (slotPos33 cs t) = isFile33 b x (slotPos33 cs t) ∧ (isFile33 b x (slotPos33 cs t) = true →
      16 * byteOf m'.bytes (slotPos33 cs t) + byteOf m'.bytes (slotPos33 cs t + 1) = 16 * byteOf b (slotPos33 cs t) + byteOf b (slotPos33 cs t + 1)) := by
    intro t ht
    have hs := getElem?_seen pc ht
    by_cases hti : t = i
    · have e : byteOf m'.bytes (slotPos33 cs t) = 255 := h4.slot t none (by
        rw [hti, List.getElem?_set_self (by rw [List.length_map]; exact (List.getElem?_eq_some_iff.mp h1).1)])
      have hq : isFile33 b x (slotPos33 cs t) = false := by
        rw [← hti, hs] at h1
        injection h1 with h1
        subst h1
        unfold isFile33
        by_cases hd : byteOf b (slotPos33 cs t) = 255
        · rw [hd]; rfl
        · rw [← plain_name (hp _ (List.mem_of_getElem? hs) hd), h2, decide_eq_false (p := dosName33 name = x) (fun he => hx he.symm), Bool.and_false]
      rw [hq]
      refine ⟨?_, fun h => by cases h⟩
      unfold isFile33
      rw [e]; rfl
    · refine kept_slot h4 (by rw [List.getElem?_set_ne (fun h => hti h.symm), List.getElem?_map, hs]; rfl) (fun hd => ?_) x
      rw [h5 t _ hti hs hd, plain_name (hp _ (List.mem_of_getElem? hs) hd)]
  exact find_agree _ (fun t ht => (hall t (List.mem_range.mp ht)).1) (fun t ht => (hall t (List.mem_range.mp ht)).2)

/-- **C115, adding: what holds.** Under the same condition DOS 3.3 finds every other file where it found it before, and it finds the
new file (if there was none with its name), even one with 30 characters. -/
theorem C115_added_partial {b : Bytes} {cs : List Nat} {m m' : DImg} {name data : Bytes} {ftype n : Nat} (hm : DImg.open b = .ok m)
    (v : Volume33 b cs) (hv : 272 ∉ cs) (hn : sectors33 b = 560) (hcs : cs ≠ []) (hfree : ∀ x ∈ cs, ¬ IsFree33 b x) (hft : ftype < 128)
    (pc : PlainCat33 b cs n) (hlow : ∀ s, IsFree33 b s → 16 ≤ s)
    (hp : ∀ p ∈ catSeen33 b cs, byteOf b p ≠ 255 → PlainName33 (nameField33 b p)) (h : DImg.writeFile name ftype data m = (.ok (), m')) :
    (∀ x, x ≠ dosName33 (name.take 30) → dosLookup33 m'.bytes cs x = dosLookup33 b cs x) ∧
    (dosLookup33 b cs (dosName33 (name.take 30)) = none → ∃ s, IsFree33 b s ∧ dosLookup33 m'.bytes cs (dosName33 (name.take 30)) = some s) := by
  obtain ⟨i, f, slots, h1, h2, h3, h4, h5, h6, h7, h8, _, hfr, h9, h10, h11⟩ := write_named hm v hv hn hcs hfree hft pc hlow h
  have hseen := packed_dosSeen h6 pc (by omega) h9
  have hold : ∀ t x, t < n → t ≠ i → isFile33 m'.bytes x (slotPos33 cs t) = isFile33 b x (slotPos33 cs t) ∧ (isFile33 b x (slotPos33 cs t) = true →
      16 * byteOf m'.bytes (slotPos33 cs t) + byteOf m'.bytes (slotPos33 cs t + 1) = 16 * byteOf b (slotPos33 cs t) + byteOf b (slotPos33 cs t + 1)) := by
    intro t x ht hti
    have hs := getElem?_seen pc ht
    refine kept_slot h6 (h5 t ht hti) (fun hd => ?_) x
    rw [h11 t ht hti hd, plain_name (hp _ (List.mem_of_getElem? hs) hd)]
  have hnew : i < n → ∀ x, isFile33 b x (slotPos33 cs i) = false := by
    intro hi x
    unfold isFile33
    rw [h2 hi]; rfl
  constructor
  · intro x hx
    have hi : isFile33 m'.bytes x (slotPos33 cs i) = false := by
      unfold isFile33
      rw [h10, decide_eq_false (p := dosName33 (name.take 30) = x) (fun he => hx he.symm), Bool.and_false]
    rw [lookup_slots hseen, lookup_slots pc.dosSeen]
    have hall : ∀ t, t < n → isFile33 m'.bytes x (slotPos33 cs t) = isFile33 b x (slotPos33 cs t) ∧ (isFile33 b x (slotPos33 cs t) = true →
        16 * byteOf m'.bytes (slotPos33 cs t) + byteOf m'.bytes (slotPos33 cs t + 1) = 16 * byteOf b (slotPos33 cs t) + byteOf b (slotPos33 cs t + 1)) := by
      intro t ht
      by_cases hti : t = i
      · subst hti
        rw [hi, hnew ht x]
        exact ⟨rfl, fun h => by cases h⟩
      · exact hold t x ht hti
    have hmain := find_agree (List.range n) (fun t ht => (hall t (List.mem_range.mp ht)).1) (fun t ht => (hall t (List.mem_range.mp ht)).2)
    rcases Nat.lt_or_ge i n with hin | hin
    · rw [show slots.length = n by omega]
      exact hmain
    · have hin : i = n := by omega
      subst hin
      rw [show slots.length = i + 1 by omega, List.range_succ, List.find?_append]
      have : [i].find? (fun t => isFile33 m'.bytes x (slotPos33 cs t)) = none := by
        rw [List.find?_eq_none]
        intro t ht hf
        rw [List.mem_singleton.mp ht, hi] at hf
        cases hf
      rw [this, Option.or_none]
      exact hmain
  · intro hno
    rw [lookup_slots pc.dosSeen, Option.map_eq_none_iff, List.find?_eq_none] at hno
    obtain ⟨k1, k2⟩ := h6.slot i _ h4
    have ht' : byteOf m'.bytes (slotPos33 cs i) = f.track := congrArg FileInfo33.track k2
    have hf' : 16 * byteOf m'.bytes (slotPos33 cs i) + byteOf m'.bytes (slotPos33 cs i + 1) = f.first := congrArg FileInfo33.first k2
    refine ⟨f.first, hfr, ?_⟩
    rw [lookup_slots hseen]
    have hfind : (List.range slots.length).find? (fun t => isFile33 m'.bytes (dosName33 (name.take 30)) (slotPos33 cs t)) = some i := by
      rw [List.find?_range_eq_some]
      refine ⟨?_, List.mem_range.mpr (by omega), ?_⟩
      · unfold isFile33
        rw [ht', h10, decide_eq_true (show f.track < 128 by omega), decide_eq_true rfl]
        rfl
      · intro t ht
        have htn : t < n := by omega
        have hno' := hno t (List.mem_range.mpr htn)
        rw [(hold t _ htn (by omega)).1]
        simpa using hno'
    rw [hfind]
    exact congrArg some hf'

/-! ### the condition is kept -/

/-- catalog without gaps, names of at most 29 characters, no text files -/
structure PlainDisk33 (b : Bytes) (cs : List Nat) (n : Nat) : Prop extends PlainCat33 b cs n where
  names : ∀ p ∈ catSeen33 b cs, byteOf b p ≠ 255 → PlainName33 (nameField33 b p)
  types : ∀ p ∈ catSeen33 b cs, byteOf b p ≠ 255 → byteOf b (p + 2) % 128 ≠ 0

theorem kept_type {b : Bytes} {cs : List Nat} {n : Nat} (h : PlainDisk33 b cs n) {t : Nat} (ht : t < n) {f : FileInfo33}
    (hf : kept33 b (slotPos33 cs t) = some f) : f.track ≠ 0 ∧ f.ftype ≠ 0 := by
  have hm := List.mem_of_getElem? (getElem?_seen h.toPlainCat33 ht)
  unfold kept33 at hf
  split at hf
  · cases hf
  · rename_i hd
    injection hf with hf
    rw [← hf]
    exact ⟨h.track t ht, h.types _ hm hd⟩

theorem plain_packed {b b' : Bytes} {cs : List Nat} {slots} {n : Nat} (h : Packed33 b b' cs slots) (hp : PlainCat33 b cs n) (hn : n ≤ slots.length)
    (ht : ∀ f, some f ∈ slots → f.track ≠ 0 ∧ f.ftype ≠ 0)
    (hname : ∀ t, t < slots.length → byteOf b' (slotPos33 cs t) ≠ 255 → PlainName33 (nameField33 b' (slotPos33 cs t))) :
    PlainDisk33 b' cs slots.length := by
  have pc := packed_plain h hp hn ht
  refine ⟨pc, ?_, ?_⟩
  · intro p hp hd
    obtain ⟨t, hts⟩ := List.getElem?_of_mem hp
    obtain ⟨h1, rfl⟩ := seen_slot pc hts
    exact hname t h1 hd
  · intro p hp hd
    obtain ⟨t, hts⟩ := List.getElem?_of_mem hp
    obtain ⟨h1, rfl⟩ := seen_slot pc hts
    rcases slot_at h h1 with ⟨_, k1⟩ | ⟨f, k1, _, _, _, k2⟩
    · exact absurd k1 hd
    · rw [k2]; exact (ht f (List.mem_of_getElem? k1)).2

/-- **C115, adding: the condition.** It still holds after a file with such a name was added. -/
theorem C115_plain_added {b : Bytes} {cs : List Nat} {m m' : DImg} {name data : Bytes} {ftype n : Nat} (hm : DImg.open b = .ok m)
    (v : Volume33 b cs) (hv : 272 ∉ cs) (hn : sectors33 b = 560) (hcs : cs ≠ []) (hfree : ∀ x ∈ cs, ¬ IsFree33 b x) (hft : ftype < 128)
    (hft0 : ftype ≠ 0) (hc : norm33 name = name) (ha : ∀ c ∈ name, c < 0x80) (pd : PlainDisk33 b cs n) (hlow : ∀ s, IsFree33 b s → 16 ≤ s)
    (h : DImg.writeFile name ftype data m = (.ok (), m')) : ∃ n', n ≤ n' ∧ n' ≤ n + 1 ∧ PlainDisk33 m'.bytes cs n' := by
  obtain ⟨i, f, slots, h1, h2, h3, h4, h5, h6, h7, h8, h8', _, h9, h10, h11⟩ := write_named hm v hv hn hcs hfree hft pd.toPlainCat33 hlow h
  refine ⟨slots.length, by omega, by omega, plain_packed h6 pd.toPlainCat33 (by omega) ?_ ?_⟩
  · intro g hg
    obtain ⟨t, ht⟩ := List.getElem?_of_mem hg
    by_cases hti : t = i
    · rw [hti, h4] at ht
      injection ht with ht
      injection ht with ht
      rw [← ht]
      exact ⟨h9 f (List.mem_of_getElem? h4), by rw [h8']; exact hft0⟩
    · have htn : t < n := by have := (List.getElem?_eq_some_iff.mp ht).1; omega
      rw [h5 t htn hti] at ht
      injection ht with ht
      exact kept_type pd htn ht
  · intro t ht hd
    have hl : name.length ≤ 29 := by
      rw [← hc]
      unfold norm33
      exact Nat.le_trans (length_rstripWs _) (by rw [List.length_take]; omega)
    by_cases hti : t = i
    · rw [hti, h10, List.take_of_length_le (by omega)]
      refine ⟨name, rfl, hl, ha, ?_⟩
      rw [← hc]
      exact rstripWs_idem _
    · have htn : t < n := by omega
      have hs := getElem?_seen pd.toPlainCat33 htn
      have hd' : byteOf b (slotPos33 cs t) ≠ 255 := by
        intro hx
        exact hd (h6.slot t none (by rw [h5 t htn hti, kept33, if_pos hx]))
      have hpn := pd.names _ (List.mem_of_getElem? hs) hd'
      rw [h11 t htn hti hd', plain_name hpn]
      exact hpn

/-- **C115, removing: the condition.** It still holds after a file was removed. -/
theorem C115_plain_removed {b : Bytes} {cs : List Nat} {m m' : DImg} {name : Bytes} {n : Nat} (hm : DImg.open b = .ok m) (v : Volume33 b cs)
    (hv : 272 ∉ cs) (hn : sectors33 b = 560) (pd : PlainDisk33 b cs n) (h : DImg.deleteFile name m = (.ok (), m')) : PlainDisk33 m'.bytes cs n := by
  obtain ⟨i, p, h1, h2, h3, h4, h5⟩ := delete_named hm v hv hn h
  have hml : (((catSeen33 b cs).map (kept33 b)).set i none).length = n := by
    rw [List.length_set, List.length_map, pd.seen, List.length_map, List.length_range]
  have hget : ∀ t, t < n → t ≠ i → (((catSeen33 b cs).map (kept33 b)).set i none)[t]? = some (kept33 b (slotPos33 cs t)) := by
    intro t ht hti
    rw [List.getElem?_set_ne (fun h => hti h.symm), List.getElem?_map, getElem?_seen pd.toPlainCat33 ht]
    rfl
  have hi : (((catSeen33 b cs).map (kept33 b)).set i none)[i]? = some none := by
    rw [List.getElem?_set_self (by rw [List.length_map]; exact (List.getElem?_eq_some_iff.mp h1).1)]
  generalize ((catSeen33 b cs).map (kept33 b)).set i none = slots at h4 hml hget hi
  subst hml
  refine plain_packed h4 pd.toPlainCat33 (Nat.le_refl _) ?_ ?_
  · intro g hg
    obtain ⟨t, ht⟩ := List.getElem?_of_mem hg
    by_cases hti : t = i
    · rw [hti, hi] at ht
      cases ht
    · have htn := (List.getElem?_eq_some_iff.mp ht).1
      rw [hget t htn hti] at ht
      injection ht with ht
      exact kept_type pd htn ht
  · intro t ht hd
    by_cases hti : t = i
    · exact absurd (h4.slot t none (by rw [hti, hi])) hd
    · have hs := getElem?_seen pd.toPlainCat33 ht
      have hd' : byteOf b (slotPos33 cs t) ≠ 255 := by
        intro hx
        exact hd (h4.slot t none (by rw [hget t ht hti, kept33, if_pos hx]))
      have hpn := pd.names _ (List.mem_of_getElem? hs) hd'
      rw [h5 t _ hti hs hd', plain_name hpn]
      exact hpn

/-! ### concrete cases -/

theorem plain_blank : PlainCat33 blank33 catBlank33 0 := by
  refine ⟨by omega, fun t h => by omega, fun t h => by omega, fun t _ h => ?_⟩
  have hl : t / 7 < catBlank33.length := by omega
  have hx : catBlank33[t / 7]? = some (catBlank33.getD (t / 7) 0) := by rw [List.getD_eq_getElem?_getD, List.getElem?_eq_getElem hl]; rfl
  have hs := blank33_template.cat _ _ hx
  have hm : t % 7 < 7 := Nat.mod_lt _ (by omega)
  have hz : ∀ k, k < 256 → 3 ≤ k → ((sec33 blank33 (catBlank33.getD (t / 7) 0)).getD k 0).toNat = 0 := by
    intro k h1 h2
    rw [hs]
    unfold emptyCat33
    generalize catBlank33.getD (t / 7 + 1) 0 = y
    rw [List.getD_eq_getElem?_getD, List.getElem?_append_right (by simpa [tsBytes] using h2), List.getElem?_replicate]
    split <;> rfl
  have h0 := hz (11 + 35 * (t % 7)) (by omega) (by omega)
  have h2 := hz (11 + 35 * (t % 7) + 2) (by omega) (by omega)
  rw [getD_sec33 (by omega)] at h0 h2
  unfold byteOf slotPos33
  rw [show 256 * catBlank33.getD (t / 7) 0 + 11 + 35 * (t % 7) = 256 * catBlank33.getD (t / 7) 0 + (11 + 35 * (t % 7)) by omega,
    show 256 * catBlank33.getD (t / 7) 0 + (11 + 35 * (t % 7)) + 2 = 256 * catBlank33.getD (t / 7) 0 + (11 + 35 * (t % 7) + 2) by omega]
  exact ⟨h0, h2⟩

/-- what the theorems ask of a disk holds for every consistent volume -/
theorem mounted_names {m : DImg} {cs ds} (h : Mounted33 m cs ds) : Volume33 m.bytes cs ∧ 272 ∉ cs ∧ sectors33 m.bytes = 560 ∧ cs ≠ [] ∧
    (∀ x ∈ cs, ¬ IsFree33 m.bytes x) ∧ ∀ s, IsFree33 m.bytes s → 16 ≤ s := by
  have c := h.2
  obtain ⟨v, hn⟩ := volume_of_consistent c
  exact ⟨v, c.cat272, hn, c.catNe, fun x hx hf => (c.free x hf).2.2.2 hx, fun s hs => (c.free s hs).1⟩

/-- `AAA…AB`, 30 characters -/
def name30 : Bytes := List.replicate 29 0x41 ++ [0x42]

theorem find_listed {m : DImg} {x y : Bytes} {t : Nat} {c : Except Err Bytes} (h : m.listing = [(x, t, c)]) (hy : x = y) : m.findFile y = c := by
  subst hy
  unfold DImg.listing at h
  obtain ⟨d, hd, e⟩ := List.map_eq_singleton_iff.mp h
  unfold DImg.findFile DImg.findDirent
  rw [hd]
  have e1 : d.filename = x := congrArg (·.1) e
  have e2 : d.getFile m.maxSectors m.bytes = c := congrArg (·.2.2) e
  rw [List.find?_cons, e1, beq_self_eq_true]
  exact e2

/-- A file with a name of 30 characters on the blank disk is found by DOS 3.3, until another file is added. -/
theorem C115_lost : ∃ m1 m2 s, DImg.writeFile name30 4 [1] (mount33 blank33 []) = (.ok (), m1) ∧
    dosLookup33 m1.bytes catBlank33 (dosName33 name30) = some s ∧ DImg.writeFile [0x42] 4 [2] m1 = (.ok (), m2) ∧
    dosLookup33 m2.bytes catBlank33 (dosName33 name30) = none ∧ m2.findFile (name30.take 29) = .ok (padded33 [1]) := by
  have hm0 := mounted_blank33
  have hb0 : (mount33 blank33 []).bytes = blank33 := mount33_bytes _ _
  have hp0 := template33_pool blank33_template
  have hok := (C10_write_succeeds_iff (name := name30) (data := [1]) (ftype := 4) hm0 (by omega) (by omega)
    (fun hx => nomatch hx)).mpr ⟨by simp, by unfold Ascii33; decide, by decide, by rw [hb0, hp0]; decide⟩
  have pc0 : PlainCat33 (mount33 blank33 []).bytes catBlank33 0 := by rw [hb0]; exact plain_blank
  have hf0 : (mount33 blank33 []).files = [] := rfl
  have hn0 : (mount33 blank33 []).names = [] := rfl
  rw [← hb0] at hp0
  clear hb0
  generalize mount33 blank33 [] = m at hm0 hok pc0 hf0 hn0 hp0 ⊢
  generalize hw1 : DImg.writeFile name30 4 [1] m = r1 at hok
  obtain ⟨r1, m1⟩ := r1
  have hok : r1 = .ok () := hok
  subst hok
  obtain ⟨v, h272, hn, hcs, hfree, hlow⟩ := mounted_names hm0
  obtain ⟨ds1, L1, L2, k1, k2, k3, k4, k5, _⟩ := write33_ok hm0 (by omega) (by omega) (by rw [hn0]; exact fun hx => nomatch hx) hw1
  have hL : L1 = [] ∧ L2 = [] := by
    have : m.listing = [] := by unfold DImg.listing; rw [hf0]; rfl
    rw [this] at k2
    exact List.append_eq_nil_iff.mp k2.symm
  rw [hL.1, hL.2] at k3
  have hlist : m1.listing = [(norm33 name30, 4, .ok (padded33 [1]))] := k3
  have hnames : m1.names = [norm33 name30] := by rw [← listing33_names, hlist]; rfl
  have hfl : m1.files.length = 1 := by
    have := congrArg List.length hlist
    unfold DImg.listing at this
    rwa [List.length_map] at this
  obtain ⟨a1, a2⟩ := C115_added_partial hm0.1 v h272 hn hcs hfree (by omega) pc0 hlow (by rw [pc0.seen]; exact fun p hp => nomatch hp) hw1
  obtain ⟨s, _, hs⟩ := a2 (by rw [lookup_slots pc0.dosSeen]; rfl)
  obtain ⟨i, f, slots, w1, w2, w3, w4, w5, w6, w7, w8, w9, _, w10, _⟩ := write_named hm0.1 v h272 hn hcs hfree (by omega) pc0 hlow hw1
  have hi : i = 0 := by omega
  subst hi
  have pc1 := packed_plain w6 pc0 (by omega) (fun g hg => ⟨w10 g hg, by
    obtain ⟨t, ht⟩ := List.getElem?_of_mem hg
    have : t = 0 := by have := (List.getElem?_eq_some_iff.mp ht).1; omega
    rw [this, w4] at ht
    injection ht with ht
    injection ht with ht
    rw [← ht, w9]
    omega⟩)
  obtain ⟨v', h272', hn', hcs', hfree', hlow'⟩ := mounted_names k1
  have hok2 := (C10_write_succeeds_iff (name := [0x42]) (data := [2]) (ftype := 4) k1 (by omega) (by omega)
    (by rw [hnames]; decide)).mpr ⟨by simp, by unfold Ascii33; decide, by rw [hfl]; decide, by rw [k5, List.length_drop, hp0]; decide⟩
  generalize hw2 : DImg.writeFile [0x42] 4 [2] m1 = r2 at hok2
  obtain ⟨r2, m2⟩ := r2
  have hok2 : r2 = .ok () := hok2
  subst hok2
  refine ⟨m1, m2, s, rfl, hs, hw2, C115_refuted_add k1.1 v' h272' hn' hcs' hfree' (by omega) pc1 hlow' hw2 (Or.inl (by decide)) (by decide), ?_⟩
  obtain ⟨_, g2, _⟩ := C11_write_frame k1 (by decide) (by omega) (by omega) (by rw [hnames]; decide) hw2
  rw [g2 _ (by decide)]
  exact find_listed hlist (by decide)

/-- Files `A` and `B` on the blank disk: DOS 3.3 finds `B` where it was when `A` has been removed. -/
example : ∃ m1 m2 m3 s, DImg.writeFile [0x41] 4 [1] (mount33 blank33 []) = (.ok (), m1) ∧ DImg.writeFile [0x42] 4 [2] m1 = (.ok (), m2) ∧
    DImg.deleteFile [0x41] m2 = (.ok (), m3) ∧ dosLookup33 m2.bytes catBlank33 (dosName33 [0x42]) = some s ∧
    dosLookup33 m3.bytes catBlank33 (dosName33 [0x42]) = some s := by
  have hm0 := mounted_blank33
  have hb0 : (mount33 blank33 []).bytes = blank33 := mount33_bytes _ _
  have hp0 := template33_pool blank33_template
  have hok := (C10_write_succeeds_iff (name := [0x41]) (data := [1]) (ftype := 4) hm0 (by omega) (by omega)
    (fun hx => nomatch hx)).mpr ⟨by simp, by unfold Ascii33; decide, by decide, by rw [hb0, hp0]; decide⟩
  have pc0 : PlainCat33 (mount33 blank33 []).bytes catBlank33 0 := by rw [hb0]; exact plain_blank
  have pd0 : PlainDisk33 (mount33 blank33 []).bytes catBlank33 0 :=
    ⟨pc0, by rw [pc0.seen]; exact (fun p hp => nomatch hp), by rw [pc0.seen]; exact (fun p hp => nomatch hp)⟩
  have hf0 : (mount33 blank33 []).files = [] := rfl
  have hn0 : (mount33 blank33 []).names = [] := rfl
  rw [← hb0] at hp0
  clear hb0
  generalize mount33 blank33 [] = m at hm0 hok pc0 pd0 hf0 hn0 hp0 ⊢
  generalize hw1 : DImg.writeFile [0x41] 4 [1] m = r1 at hok
  obtain ⟨r1, m1⟩ := r1
  have hok : r1 = .ok () := hok
  subst hok
  obtain ⟨v, h272, hn, hcs, hfree, hlow⟩ := mounted_names hm0
  obtain ⟨ds1, L1, L2, k1, k2, k3, k4, k5, _⟩ := write33_ok hm0 (by omega) (by omega) (by rw [hn0]; exact fun hx => nomatch hx) hw1
  have hL : L1 = [] ∧ L2 = [] := by
    have : m.listing = [] := by unfold DImg.listing; rw [hf0]; rfl
    rw [this] at k2
    exact List.append_eq_nil_iff.mp k2.symm
  rw [hL.1, hL.2] at k3
  have hlist : m1.listing = [(norm33 [0x41], 4, .ok (padded33 [1]))] := k3
  have hnames : m1.names = [norm33 [0x41]] := by rw [← listing33_names, hlist]; rfl
  have hfl : m1.files.length = 1 := by
    have := congrArg List.length hlist
    unfold DImg.listing at this
    rwa [List.length_map] at this
  obtain ⟨n1, _, _, pd1⟩ := C115_plain_added hm0.1 v h272 hn hcs hfree (by omega) (by omega) (by decide) (by decide) pd0 hlow hw1
  obtain ⟨a1, _⟩ := C115_added_partial hm0.1 v h272 hn hcs hfree (by omega) pc0 hlow pd0.names hw1
  obtain ⟨v', h272', hn', hcs', hfree', hlow'⟩ := mounted_names k1
  have hok2 := (C10_write_succeeds_iff (name := [0x42]) (data := [2]) (ftype := 4) k1 (by omega) (by omega)
    (by rw [hnames]; decide)).mpr ⟨by simp, by unfold Ascii33; decide, by rw [hfl]; decide, by rw [k5, List.length_drop, hp0]; decide⟩
  generalize hw2 : DImg.writeFile [0x42] 4 [2] m1 = r2 at hok2
  obtain ⟨r2, m2⟩ := r2
  have hok2 : r2 = .ok () := hok2
  subst hok2
  obtain ⟨ds2, _, _, j1, _⟩ := write33_ok k1 (by omega) (by omega) (by rw [hnames]; decide) hw2
  obtain ⟨n2, _, _, pd2⟩ := C115_plain_added k1.1 v' h272' hn' hcs' hfree' (by omega) (by omega) (by decide) (by decide) pd1 hlow' hw2
  obtain ⟨_, a2⟩ := C115_added_partial k1.1 v' h272' hn' hcs' hfree' (by omega) pd1.toPlainCat33 hlow' pd1.names hw2
  obtain ⟨s, _, hs⟩ := a2 (by
    rw [a1 _ (by decide), lookup_slots pc0.dosSeen]
    rfl)
  have hin : [0x41] ∈ m2.names := by
    refine Classical.byContradiction fun hx => ?_
    have e1 := (find33_missing hx).2
    obtain ⟨_, g2, _⟩ := C11_write_frame k1 (by decide) (by omega) (by omega) (by rw [hnames]; decide) hw2
    rw [g2 _ (by decide), find_listed hlist (by decide)] at e1
    cases e1
  obtain ⟨m3, ds3, d1, _⟩ := C12_delete j1 hin
  obtain ⟨v2, h2722, hn2, _⟩ := mounted_names j1
  exact ⟨m1, m2, m3, s, rfl, hw2, d1, hs, by
    rw [C115_removed_partial j1.1 v2 h2722 hn2 pd2.toPlainCat33 pd2.names d1 (by decide)]
    exact hs⟩

end Atr
