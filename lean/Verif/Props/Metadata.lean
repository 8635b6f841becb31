import Verif.Spec.Metadata
import Verif.Props.Display
import Verif.Props.Dos33Read
/-! # C105: what `list -m` prints -/
namespace Atr

/-! ### joined texts -/

theorem partsGo_plain : ∀ (t acc r : List Char), ',' ∉ t → partsOf.go acc (t ++ ',' :: ' ' :: r) = (acc.reverse ++ t) :: partsOf.go [] r := by
  intro t
  induction t with
  | nil =>
    intro acc r _
    rw [List.nil_append, partsOf.go, List.append_nil]
  | cons c t ih =>
    intro acc r h
    have hc : c ≠ ',' := fun e => h (e ▸ List.mem_cons_self)
    rw [List.cons_append, partsOf.go, ih _ _ fun hm => h (List.mem_cons_of_mem _ hm), List.reverse_cons, List.append_assoc]
    · rfl
    · rintro t rfl; exact absurd rfl hc

theorem partsGo_last : ∀ (t acc : List Char), ',' ∉ t → partsOf.go acc t = [acc.reverse ++ t] := by
  intro t
  induction t with
  | nil => intro acc _; rw [partsOf.go, List.append_nil]
  | cons c t ih =>
    intro acc h
    have hc : c ≠ ',' := fun e => h (e ▸ List.mem_cons_self)
    rw [partsOf.go, ih _ fun hm => h (List.mem_cons_of_mem _ hm), List.reverse_cons, List.append_assoc]
    · rfl
    · rintro t rfl; exact absurd rfl hc

theorem joined_ne_nil {sep t : Text} {l : List Text} (h : t ≠ []) : joined sep (t :: l) ≠ [] := by
  cases l with
  | nil => exact h
  | cons u l =>
    rw [joined]
    · intro hh; simp at hh; exact h hh.1
    · intro hh; cases hh

theorem partsOf_joined : ∀ (l : List Text), (∀ t ∈ l, t ≠ [] ∧ ',' ∉ t) → partsOf (joined ", ".toList l) = l := by
  have key : ∀ (l : List Text) t, (∀ x ∈ t :: l, x ≠ [] ∧ ',' ∉ x) → partsOf.go [] (joined ", ".toList (t :: l)) = t :: l := by
    intro l
    induction l with
    | nil => intro t h; rw [joined, partsGo_last _ _ (h t List.mem_cons_self).2]; rfl
    | cons u l ih =>
      intro t h
      rw [joined, show t ++ ", ".toList ++ joined ", ".toList (u :: l) = t ++ ',' :: ' ' :: joined ", ".toList (u :: l) by rw [List.append_assoc]; rfl,
        partsGo_plain _ _ _ (h t List.mem_cons_self).2, ih u fun x hx => h x (List.mem_cons_of_mem _ hx)]
      · rfl
      · intro hh; cases hh
  intro l h
  unfold partsOf
  cases l with
  | nil => rfl
  | cons t l => rw [if_neg (joined_ne_nil (h t List.mem_cons_self).1), key l t h]

theorem readParts_joined (p : List Char) {l : List Text} (h : ∀ t ∈ l, t ≠ [] ∧ ',' ∉ t) : readParts p (p ++ joined ", ".toList l ++ [']']) = some l := by
  unfold readParts
  rw [List.append_assoc, expect_append]
  simp only [Option.bind_eq_bind, Option.bind_some, List.getLast?_append, List.getLast?_singleton, Option.some_or, if_pos, List.dropLast_concat, partsOf_joined l h]

theorem wholeNumber_pctD (n : Nat) : wholeNumber (pctD n) = some n := by
  unfold wholeNumber
  have := number_pctD n noDigit_nil
  rw [List.append_nil] at this
  rw [this]

theorem readMap_joined (ds : List Nat) : readMap ("sector map: [".toList ++ joined ", ".toList (ds.map fun s : Nat => pctD s) ++ [']']) = some ds := by
  unfold readMap
  rw [readParts_joined]
  · simp only [Option.bind_eq_bind, Option.bind_some]
    induction ds with
    | nil => rfl
    | cons d ds ih =>
      rw [List.map_cons, List.mapM_cons, wholeNumber_pctD, ih]
      rfl
  · intro t ht
    obtain ⟨s, -, rfl⟩ := List.mem_map.mp ht
    exact ⟨Nat.toDigits_ne_nil, fun h => absurd (digits_isDigit s _ h) (by decide)⟩

/-! ### flags -/

theorem atari_flags : ∀ a1 a2 a3 a4 a5 a6 : Bool,
    readFlags (flagsText [(a1, "OUT".toList), (a2, "DOS2".toList), (a3, "MYDOS".toList), (a4, "IN_USE".toList), (a5, "DEL".toList), (a6, "LOCK".toList)]) =
      some ((if a1 then ["OUT".toList] else []) ++ (if a2 then ["DOS2".toList] else []) ++ (if a3 then ["MYDOS".toList] else []) ++
        (if a4 then ["IN_USE".toList] else []) ++ (if a5 then ["DEL".toList] else []) ++ (if a6 then ["LOCK".toList] else [])) := by decide +kernel

theorem sparta_flags : ∀ a1 a2 a4 a5 a6 : Bool,
    readFlags (flagsText [(a1, "OUT".toList), (a2, "DIR".toList), (a4, "IN_USE".toList), (a5, "DEL".toList), (a6, "LOCK".toList)]) =
      some ((if a1 then ["OUT".toList] else []) ++ (if a2 then ["DIR".toList] else []) ++
        (if a4 then ["IN_USE".toList] else []) ++ (if a5 then ["DEL".toList] else []) ++ (if a6 then ["LOCK".toList] else [])) := by decide +kernel

/-- **C105, Atari.** The flags printed by name are those that the line of the entry shows. -/
theorem C105_atari {b : Bytes} {m : AImg} (hm : AImg.open b = .ok m) :
    m.files.map (fun d => readFlags d.extra) = (atariFiles (dirBytes m.hdr b)).map fun i => some (atariLineOf (dirBytes m.hdr b) i).flags := by
  have h := C87_atari hm
  have key : ∀ d ∈ m.files, readFlags d.extra = (readAtari d.line).map fun x => x.1.flags := by
    intro d hd
    obtain ⟨e, k, hl, hp⟩ := atari_files_parsed hm d hd
    have key : d.basename.length ≤ 8 ∧ d.ext.length ≤ 3 ∧ ∃ s : Nat, d.startingSector = s := by
      match e, hl with
      | [f, c0, c1, s0, s1, n0, n1, n2, n3, n4, n5, n6, n7, e0, e1, e2], _ =>
        cases hp
        exact ⟨length_trimmed [n0, n1, n2, n3, n4, n5, n6, n7], length_trimmed [e0, e1, e2], _, rfl⟩
    obtain ⟨q3, q4, s, q5⟩ := key
    have hr := readAtari_line d q5 q3 q4 noDigit_nil
    rw [List.append_nil] at hr
    rw [hr, Option.map_some]
    unfold ADirent.extra AtariLine.flags
    simp only
    exact atari_flags ..
  have hc := congrArg (List.map (Option.map fun x : AtariLine × List Char => x.1.flags)) h
  rw [List.map_map, List.map_map] at hc
  rw [List.map_congr_left key]
  exact hc

/-- **C105, KBoot.** -/
theorem C105_kboot (m : HImg) : readFlags (kbootDirent m).extra = some ["IN_USE".toList] := by
  show readFlags (flagsText [(false, _), (false, _), (false, _), (true, _), (false, _), (false, _)]) = _
  decide +kernel

theorem sparta_extra (d : SDirent) {e : Bytes} (he : e.length = 23) (hd : d.info = sInfo e) :
    readFlags d.extra = (readSparta d.line).map fun x => x.1.flags := by
  have h := sparta_entry_line he hd noDigit_nil
  rw [List.append_nil] at h
  rw [h, Option.map_some]
  unfold SDirent.extra SpartaLine.flags spartaLineOf SDirent.info
  simp only
  exact sparta_flags ..

/-- **C105, SpartaDOS.** The same for the records of the root directory. -/
theorem C105_sparta {b : Bytes} {m : SImg} (hm : SImg.open b = .ok m) :
    m.files.map (fun d => readFlags d.extra) = ((m.files.map SDirent.info).zipIdx 1).map fun x => some (spartaLineOf x).flags := by
  obtain ⟨-, h2⟩ := sparta_open_records hm
  have hc := congrArg (List.map (Option.map fun x : SpartaLine × List Char => x.1.flags)) (C87_sparta hm)
  rw [List.map_map, List.map_map] at hc
  refine Eq.trans (List.map_congr_left fun d hd => ?_) hc
  obtain ⟨e, he, hi⟩ := h2 d hd
  exact sparta_extra d he hi

/-! ### sectors -/

theorem readListLine_text (k s : Nat) :
    readListLine ([' '] ++ pctD k ++ ": sector=".toList ++ pctD s ++ " next=0 size=256 used=256".toList) = some ⟨k, s, 0, 256, 256⟩ := by
  have e : [' '] ++ pctD k ++ ": sector=".toList ++ pctD s ++ " next=0 size=256 used=256".toList =
      " ".toList ++ (pctD k ++ (": sector=".toList ++ (pctD s ++ " next=0 size=256 used=256".toList))) := by
    simp only [List.append_assoc]; rfl
  unfold readListLine
  rw [e, expect_append]
  simp only [Option.bind_eq_bind, Option.bind_some]
  rw [number_pctD k (t := ": sector=".toList ++ (pctD s ++ " next=0 size=256 used=256".toList)) (noDigit_cons (c := ':') (t := " sector=".toList ++ (pctD s ++ " next=0 size=256 used=256".toList)) (by decide))]
  simp only [Option.bind_some]
  rw [expect_append]
  simp only [Option.bind_some]
  rw [number_pctD s (t := " next=0 size=256 used=256".toList) (noDigit_cons (c := ' ') (t := "next=0 size=256 used=256".toList) (by decide))]
  simp only [Option.bind_some]
  rw [show (expect " next=".toList " next=0 size=256 used=256".toList) = some "0 size=256 used=256".toList by decide +kernel]
  simp only [Option.bind_some]
  rw [show number "0 size=256 used=256".toList = some (0, " size=256 used=256".toList) by decide +kernel]
  simp only [Option.bind_some]
  rw [show (expect " size=".toList " size=256 used=256".toList) = some "256 used=256".toList by decide +kernel]
  simp only [Option.bind_some]
  rw [show number "256 used=256".toList = some (256, " used=256".toList) by decide +kernel]
  simp only [Option.bind_some]
  rw [show (expect " used=".toList " used=256".toList) = some "256".toList by decide +kernel]
  simp only [Option.bind_some]
  rw [show wholeNumber "256".toList = some 256 by decide +kernel]
  rfl

theorem joined_newline : ∀ (l : List Text) (t : Text), joined ['\n'] (t :: l) ++ ['\n'] = stdout (t :: l) := by
  intro l
  induction l with
  | nil => intro t; simp [joined, stdout]
  | cons u l ih =>
    intro t
    rw [joined, List.append_assoc, ih u]
    · simp [stdout]
    · intro h; cases h

/-- what the sectors of the list are said to be -/
theorem says_text {ts ds : List Nat} (hts : ts ≠ []) : SaysSectors ts ds (fun _ => 0) (linesOf (stdout
    ["track/sector list at: ".toList ++ tsText ts ++ ['\n'] ++ "sector map: [".toList ++ joined ", ".toList (ds.map fun s : Nat => pctD s) ++ [']']])) := by
  obtain ⟨f, hf⟩ : ∃ f : Nat × Nat → Text, f = fun x => [' '] ++ pctD x.2 ++ ": sector=".toList ++ pctD x.1 ++ " next=0 size=256 used=256".toList := ⟨_, rfl⟩
  obtain ⟨g, hg⟩ : ∃ g : Text, g = "sector map: [".toList ++ joined ", ".toList (ds.map fun s : Nat => pctD s) ++ [']'] := ⟨_, rfl⟩
  obtain ⟨t, ts, rfl⟩ : ∃ t l, ts = t :: l := by cases ts with | nil => exact absurd rfl hts | cons t l => exact ⟨t, l, rfl⟩
  have hone : ∀ x, '\n' ∉ f x := by
    intro x
    rw [hf]
    refine oneLine_append (oneLine_append (oneLine_append (oneLine_append ?_ (oneLine_pctD _)) ?_) (oneLine_pctD _)) ?_ <;> (unfold OneLine; decide)
  have hgone : '\n' ∉ g := by
    rw [hg]
    refine oneLine_append (oneLine_append (by unfold OneLine; decide) ?_) (by unfold OneLine; decide)
    clear hg
    induction ds with
    | nil => unfold OneLine; decide
    | cons d ds ih =>
      cases ds with
      | nil => show OneLine (pctD (d : Int)); exact oneLine_pctD _
      | cons e ds =>
        rw [List.map_cons, List.map_cons, joined]
        · exact oneLine_append (oneLine_append (oneLine_pctD _) (by unfold OneLine; decide)) ih
        · intro h; cases h
  have e : stdout ["track/sector list at: ".toList ++ tsText (t :: ts) ++ ['\n'] ++ "sector map: [".toList ++
      joined ", ".toList (ds.map fun s : Nat => pctD s) ++ [']']] =
      stdout (("track/sector list at: ".toList ++ f (t, 0)) :: ((ts.zipIdx 1).map f ++ [g])) := by
    have h1 : tsText (t :: ts) ++ ['\n'] = stdout (f (t, 0) :: (ts.zipIdx 1).map f) := by
      unfold tsText
      rw [← hf, List.zipIdx_cons, List.map_cons, joined_newline]
    have h2 : stdout ["track/sector list at: ".toList ++ tsText (t :: ts) ++ ['\n'] ++ "sector map: [".toList ++
        joined ", ".toList (ds.map fun s : Nat => pctD s) ++ [']']] = "track/sector list at: ".toList ++ ((tsText (t :: ts) ++ ['\n']) ++ (g ++ ['\n'])) := by
      rw [hg]
      unfold stdout
      simp only [List.flatMap_cons, List.flatMap_nil, List.append_assoc, List.append_nil]
    rw [h2, h1]
    unfold stdout
    simp only [List.flatMap_cons, List.flatMap_nil, List.flatMap_append, List.append_assoc, List.append_nil]
  rw [e, C87_lines]
  · refine ⟨by simp, fun k s hk => ?_, ?_⟩
    · cases k with
      | zero =>
        cases hk
        exact ⟨_, f (t, 0), rfl, by rw [if_pos rfl, expect_append], by rw [hf]; exact readListLine_text 0 t⟩
      | succ k =>
        rw [List.getElem?_cons_succ] at hk
        have hlt : k < ts.length := (List.getElem?_eq_some_iff.mp hk).1
        refine ⟨f (s, k + 1), f (s, k + 1), ?_, by rw [if_neg (by omega)], by rw [hf]; exact readListLine_text (k + 1) s⟩
        rw [List.getElem?_cons_succ, List.getElem?_append_left (by simpa using hlt), List.getElem?_map, List.getElem?_zipIdx, hk, Nat.add_comm 1 k]
        rfl
    · rw [List.length_cons, List.getElem?_cons_succ, List.getElem?_append_right (by simp)]
      simp only [List.length_map, List.length_zipIdx, Nat.sub_self, List.getElem?_cons_zero, Option.bind_some]
      rw [hg]
      exact readMap_joined ds
  · intro x hx
    rcases List.mem_cons.mp hx with rfl | hx
    · exact oneLine_append (by unfold OneLine; decide) (hone _)
    · rcases List.mem_append.mp hx with hx | hx
      · obtain ⟨y, -, rfl⟩ := List.mem_map.mp hx
        exact hone y
      · rw [List.mem_singleton.mp hx]; exact hgone

/-- the list that `list -m` shows for an entry ends, leads out of the disk, or goes round -/
theorem extra_cases {n : Nat} {b : Bytes} {d : DDirent} {s : Nat} (hs : secOfTS d.track d.sector = s) :
    (∀ ts, ListChain33 n b s ts → s ≠ 0 → ∃ x, d.extra n b = .ok x ∧ SaysSectors ts (dataSectors33 b d.numSectors ts) (fun _ => 0) (linesOf (stdout [x]))) ∧
    (ListOut33 n b s → d.extra n b = .error .byteNotInFile) ∧
    ((¬ ∃ ts, ListChain33 n b s ts) → ¬ ListOut33 n b s → d.extra n b = .error .hang) := by
  subst hs
  refine ⟨fun ts h h0 => ?_, fun h => ?_, fun h1 h2 => ?_⟩
  · unfold DDirent.extra
    rw [tsMap_of_chain h]
    refine ⟨_, rfl, says_text ?_⟩
    rintro rfl
    revert h0
    generalize secOfTS d.track d.sector = s at h
    cases h
    exact fun h => h rfl
  · unfold DDirent.extra DDirent.tsMap
    rw [tsLoop_of_out h]
    rfl
  · unfold DDirent.extra DDirent.tsMap
    rcases tsLoop_inv (n := n) (b := b) (n + 1) (secOfTS d.track d.sector) with h | ⟨ts, h, -⟩ | h
    · rw [h]; rfl
    · exact absurd ⟨ts, h⟩ h1
    · exact absurd h.1 h2

theorem entryAt33_fields (n : Nat) (b : Bytes) (k p : Nat) (hd : byteOf b p ≠ 255) :
    (entryAt33 n b k p).numSectors = (fileInfo33 b p).sectors ∧
    secOfTS (entryAt33 n b k p).track (entryAt33 n b k p).sector = 16 * byteOf b p + byteOf b (p + 1) := by
  have hi := entryAt33_info (n := n) (k := k) hd
  have h0 : ∀ j, j < 35 → ((slice b p (p + 35)).getD j 0).toNat = byteOf b (p + j) := fun j hj => by
    rw [slice_getD (by omega)]; rfl
  have e5 : (entryAt33 n b k p).track.toNat = byteOf b p := by
    have h00 : ((slice b p (p + 35)).getD 0 0).toNat = byteOf b p := h0 0 (by omega)
    show (if (slice b p (p + 35)).getD 0 0 == 0xff then (slice b p (p + 35)).getD 0x20 0 else (slice b p (p + 35)).getD 0 0).toNat = _
    rw [if_neg (by rw [toNat_beq_ff, h00, decide_eq_false hd]; decide), h00]
  have e6 : (entryAt33 n b k p).sector.toNat = byteOf b (p + 1) := h0 1 (by omega)
  refine ⟨congrArg FileInfo33.sectors hi, ?_⟩
  unfold secOfTS
  rw [e5, e6, Nat.mul_comm]

/-- **C105, DOS 3.3 (partial).** Below the line of each file of the catalog `list -m` prints the sectors of its track/sector list, in order, and its
data sectors, if the list ends; it fails if the list leads out of the disk, and does not end if the list goes round.
Missing: the sector said to follow is always 0, see `C105_refuted_next`. -/
theorem C105_dos33_partial {b : Bytes} {m : DImg} (hm : DImg.open b = .ok m) : ∃ cs, CatChain33 (sectors33 b) b (pairAt33 b 272 1) cs ∧
    ∀ d ∈ m.files, ∃ x ∈ (cs.flatMap (seenEntries33 b)).zipIdx, byteOf b x.1 ≠ 255 ∧ readDos33 d.line = some (dos33LineOf b x, []) ∧
      (∀ ts, ListChain33 (sectors33 b) b (16 * byteOf b x.1 + byteOf b (x.1 + 1)) ts → ∃ t, d.extra m.maxSectors m.bytes = .ok t ∧
        SaysSectors ts (dataSectors33 b (fileInfo33 b x.1).sectors ts) (fun _ => 0) (linesOf (stdout [t]))) ∧
      (ListOut33 (sectors33 b) b (16 * byteOf b x.1 + byteOf b (x.1 + 1)) → d.extra m.maxSectors m.bytes = .error .byteNotInFile) ∧
      ((¬ ∃ ts, ListChain33 (sectors33 b) b (16 * byteOf b x.1 + byteOf b (x.1 + 1)) ts) →
        ¬ ListOut33 (sectors33 b) b (16 * byteOf b x.1 + byteOf b (x.1 + 1)) → d.extra m.maxSectors m.bytes = .error .hang) := by
  obtain ⟨cs, v, h1, h2, h3, -⟩ := C77_opens b m hm
  refine ⟨cs, v.chain, ?_⟩
  obtain ⟨hb, hmb, -, ds, hc, hf, -⟩ := open33_ok hm
  rw [h3, h2, catLoop_of_chain v.size 0 v.chain] at hc
  have hc := Except.ok.inj hc
  intro d hd
  rw [hf, ← hc] at hd
  obtain ⟨hd, hflag⟩ := List.mem_filter.mp hd
  unfold catList33 at hd
  obtain ⟨x, hx, rfl⟩ := List.mem_map.mp hd
  rw [entryAt33_deleted] at hflag
  have hn : byteOf b x.1 ≠ 255 := by
    intro h
    rw [decide_eq_true h] at hflag
    simp at hflag
  have hl := dos33_entry_line (sectors33 b) b x.2 x.1 hn noDigit_nil
  rw [List.append_nil] at hl
  refine ⟨x, hx, hn, hl, ?_⟩
  obtain ⟨e1, e2⟩ := entryAt33_fields (sectors33 b) b x.2 x.1 hn
  obtain ⟨k1, k2, k3⟩ := extra_cases (n := sectors33 b) (b := b) e2
  rw [h3, hmb]
  rw [e1] at k1
  refine ⟨fun ts ht => k1 ts ht ?_, k2, k3⟩
  rcases v.good x.1 (List.fst_mem_of_mem_zipIdx hx) with hp | ⟨hp, -⟩
  · exact absurd hp hn
  · omega

/-- what the code says and what the disk says agree only for lists of one sector -/
theorem C105_refuted_next {n : Nat} {b : Bytes} {s : Nat} {ts ds : List Nat} {L : List (List Char)} (h : ListChain33 n b s ts) (hs : s ≠ 0)
    (hL : SaysSectors ts ds (fun _ => 0) L) : SaysSectors ts ds (fun s => pairAt33 b s 1) L ↔ ts.length = 1 := by
  constructor
  · rintro ⟨-, h2, -⟩
    cases h with
    | done => exact absurd rfl hs
    | next _ _ h =>
      rename_i ts _ _
      cases ts with
      | nil => rfl
      | cons q ts =>
        have h0 : pairAt33 b s 1 ≠ 0 := by
          revert h
          generalize pairAt33 b s 1 = q
          intro h
          cases h
          assumption
        obtain ⟨l, t, a1, a2, a3⟩ := hL.2.1 0 _ rfl
        obtain ⟨l', t', b1, b2, b3⟩ := h2 0 _ rfl
        rw [a1] at b1
        cases b1
        rw [a2] at b2
        cases b2
        rw [a3] at b3
        exact absurd (congrArg (fun x => (x.map ListLine.next).getD 1) b3).symm h0
  · intro h1
    refine ⟨hL.1, fun k s' hk => ?_, hL.2.2⟩
    cases h with
    | done => exact absurd rfl hs
    | next _ _ h =>
      rename_i ts _ _
      cases ts with
      | cons => simp at h1
      | nil =>
        have h0 : pairAt33 b s 1 = 0 := by
          revert h
          generalize pairAt33 b s 1 = q
          intro h
          cases h
          rfl
        obtain ⟨l, t, a1, a2, a3⟩ := hL.2.1 k s' hk
        refine ⟨l, t, a1, a2, ?_⟩
        cases k with
        | succ k => cases hk
        | zero =>
          cases hk
          rw [a3]
          simp only [h0]

/-! ### the listing -/

/-- **C105, the listing.** With `-m` each entry asked for is followed by its metadata.  Printing ends with the error of the first entry that cannot be
read, or has no metadata; in the second case its line has been printed. -/
theorem C105_list (sums : Bool) (names : List Bytes) (rows A : List Row) (c : Row → Bytes) (x : Row → Text)
    (hA : ∀ r ∈ A, (sums = true → r.data = .ok (c r)) ∧ r.extra = .ok (x r)) :
    (asked names rows = A →
      printList sums true names rows = (A.flatMap fun r => [r.line ++ (if sums then "  ".toList ++ pctHex (crc32 (c r)) else []), x r], .ok ())) ∧
    (∀ r B e, asked names rows = A ++ r :: B → sums = true → r.data = .error e →
      printList sums true names rows = (A.flatMap fun r => [r.line ++ (if sums then "  ".toList ++ pctHex (crc32 (c r)) else []), x r], .error e)) ∧
    (∀ r B e, asked names rows = A ++ r :: B → (sums = true → r.data = .ok (c r)) → r.extra = .error e →
      printList sums true names rows = ((A.flatMap fun r => [r.line ++ (if sums then "  ".toList ++ pctHex (crc32 (c r)) else []), x r]) ++
        [r.line ++ (if sums then "  ".toList ++ pctHex (crc32 (c r)) else [])], .error e)) := by
  have step : ∀ (r : Row) (rs : List Row), (names = [] ∨ r.name ∈ names) → (sums = true → r.data = .ok (c r)) →
      printList sums true names (r :: rs) = match r.extra with
        | .error e => ([r.line ++ (if sums then "  ".toList ++ pctHex (crc32 (c r)) else [])], .error e)
        | .ok u => ((r.line ++ (if sums then "  ".toList ++ pctHex (crc32 (c r)) else [])) :: u :: (printList sums true names rs).1,
            (printList sums true names rs).2) := by
    intro r rs h hd
    rw [printList, asked_cond, if_pos (decide_eq_true h)]
    cases sums with
    | true =>
      rw [hd rfl]
      simp only [Except.map, if_pos, List.append_assoc]
      cases r.extra <;> rfl
    | false =>
      simp only [Bool.false_eq_true, if_false, if_true, List.append_nil]
      cases r.extra <;> rfl
  unfold asked
  induction rows generalizing A with
  | nil =>
    refine ⟨?_, fun r B e h => by simp at h, fun r B e h => by simp at h⟩
    intro h
    rw [← show [] = A from h]; rfl
  | cons r rs ih =>
    rw [List.filter_cons]
    by_cases h : names = [] ∨ r.name ∈ names
    · rw [if_pos (decide_eq_true h)]
      cases A with
      | nil =>
        refine ⟨fun hh => (nomatch hh), ?_, ?_⟩
        · intro r' B e hh hs he
          injection hh with h1 h2
          subst h1
          subst hs
          rw [printList, asked_cond, if_pos (decide_eq_true h), he]
          rfl
        · intro r' B e hh hd he
          injection hh with h1 h2
          subst h1
          rw [step _ _ h hd, he]
          rfl
      | cons a A =>
        obtain ⟨i1, i2, i3⟩ := ih A fun r hr => hA r (List.mem_cons_of_mem _ hr)
        obtain ⟨d1, d2⟩ := hA a List.mem_cons_self
        refine ⟨?_, ?_, ?_⟩
        · intro hh
          injection hh with h1 h2
          subst h1
          rw [step _ _ h d1, d2, i1 h2]
          rfl
        · intro r' B e hh hs he
          injection hh with h1 h2
          subst h1
          rw [step _ _ h d1, d2, i2 r' B e h2 hs he]
          rfl
        · intro r' B e hh hd he
          injection hh with h1 h2
          subst h1
          rw [step _ _ h d1, d2, i3 r' B e h2 hd he]
          rfl
    · have hl : printList sums true names (r :: rs) = printList sums true names rs := by
        rw [printList, asked_cond, if_neg (by simpa using h)]
      rw [if_neg (by simpa using h), hl]
      exact ih A hA

/-! ### cases -/

/-- a locked file of DOS 2 -/
example : ({ inUse := true, dos2 := true, locked := true } : ADirent).extra = "flags=[DOS2, IN_USE, LOCK]".toList := by decide +kernel
example : readFlags "flags=[]".toList = some [] ∧ readFlags "flags=[DIR, IN_USE]".toList = some ["DIR".toList, "IN_USE".toList] := by decide +kernel

/-- a list of two sectors, 1 and 2, and data in sectors 32 and 33: sector 2 follows sector 1, but the line says 0 -/
def twoLists : Bytes := List.replicate 256 0 ++ ([0, 0, 2, 0, 0, 0, 0, 0, 0, 0, 0, 0, 2, 0, 2, 1] ++ List.replicate 240 0) ++ List.replicate 256 0

example : ListChain33 3 twoLists 1 [1, 2] := by
  refine .next (by omega) (by omega) ?_
  rw [show pairAt33 twoLists 1 1 = 2 by decide +kernel]
  refine .next (by omega) (by omega) ?_
  rw [show pairAt33 twoLists 2 1 = 0 by decide +kernel]
  exact .done

example : (match DDirent.extra 3 twoLists { track := 0, sector := 1, numSectors := 4 } with | .ok t => some t | .error _ => none) =
    some ("track/sector list at:  0: sector=1 next=0 size=256 used=256\n" ++ " 1: sector=2 next=0 size=256 used=256\n" ++
      "sector map: [32, 33]").toList := by decide +kernel

/-- an entry without metadata is printed, those after it are not -/
example : printList false true [] [⟨['a'], [65], .ok [], .ok ['x']⟩, ⟨['b'], [66], .ok [], .error .byteNotInFile⟩, ⟨['c'], [67], .ok [], .ok ['y']⟩] =
    ([['a'], ['x'], ['b']], .error .byteNotInFile) := by decide +kernel

end Atr
