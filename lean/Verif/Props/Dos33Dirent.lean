import Verif.Lemmas.Dos33Ops
/-!
# C40: the DOS 3.3 catalog entry codec
-/
namespace Atr

/-- what the parser returns apart from the sanity flag does not depend on the volume size -/
theorem parse33_maxS (maxS i : Nat) (e : Bytes) : DDirent.parse maxS i e =
    { DDirent.parse 560 i e with isSane := ({ DDirent.parse 560 i e with isSane := true } : DDirent).sanityCheck maxS } := rfl

theorem rstripWs_length_le (l : Bytes) : (rstripWs l).length ≤ l.length := by
  unfold rstripWs
  rw [List.length_reverse]
  exact Nat.le_trans (List.dropWhile_sublist _).length_le (by rw [List.length_reverse]; exact Nat.le_refl _)

theorem encode33_error {d : DDirent} (h : ¬ ((∀ c ∈ d.filename, c < 0x80) ∧ d.filename.length ≤ 30)) : d.encode = .error .valueError := by
  unfold DDirent.encode
  by_cases ha : ∀ c ∈ d.filename, c < 0x80
  · rw [if_neg (not_not_intro ha), if_pos (Nat.lt_of_not_le fun hl => h ⟨ha, hl⟩)]
  · rw [if_pos ha]

/-- **C40 (partial)**: a live unlocked entry with a canonical ASCII name encodes to 35 bytes, and parsing them (with any file
number, for any volume) gives back type, lock state, name, track, sector and length.  Missing for the full statement: the
lock state of locked files (`C40_lock_lost`, the claim is false there), and type and lock state of deleted entries
(`C40_deleted`). -/
theorem C40_dirent_roundtrip_partial {d : DDirent} (hn : norm33 d.filename = d.filename) (ha : ∀ c ∈ d.filename, c < 0x80)
    (hl : d.locked = false) (hd : d.deleted = false) (ht : d.ftype < 128) (htr : d.track ≠ 0xff) (hs : d.numSectors < 65536) :
    ∃ e, d.encode = .ok e ∧ e.length = 35 ∧ ∀ maxS i, DDirent.parse maxS i e =
      { d with fileNum := i, isSane := ({ d with isSane := true } : DDirent).sanityCheck maxS } := by
  have hlen : d.filename.length ≤ 29 := by
    rw [← hn]
    unfold norm33
    have h1 := rstripWs_length_le (d.filename.take 29)
    rw [List.length_take] at h1
    omega
  have he : d.Encodable := ⟨ha, by omega, ht, fun _ => htr⟩
  obtain ⟨e, h1, h2, _⟩ := encode33_ok he
  refine ⟨e, h1, h2, fun maxS i => ?_⟩
  rw [parse33_maxS, parse33_encode he h1]
  unfold DDirent.reread
  unfold norm33 at hn
  simp only [hd, hn, Nat.mod_eq_of_lt hs]
  cases d
  simp only at hl hd
  subst hl hd
  simp [DDirent.sanityCheck]

/-- **C40 is false for locked files**: every live locked entry that can be encoded comes back unlocked. -/
theorem C40_lock_lost {d : DDirent} (h : d.Encodable) (hd : d.deleted = false) (_hl : d.locked = true) :
    ∃ e, d.encode = .ok e ∧ ∀ maxS i, (DDirent.parse maxS i e).locked = false ∧ (DDirent.parse maxS i e).ftype = d.ftype := by
  obtain ⟨e, h1, h2, _⟩ := encode33_ok h
  refine ⟨e, h1, fun maxS i => ?_⟩
  rw [parse33_maxS, parse33_encode h h1]
  unfold DDirent.reread
  simp [hd]

/-- …and a locked text file then has flag 0, which ends the listing of its catalog sector: this file and all files after it in
that sector disappear. -/
theorem C40_locked_text_ends_listing {d : DDirent} (h : d.Encodable) (hd : d.deleted = false) (hl : d.locked = true) (ht : d.ftype = 0) :
    ∃ e, d.encode = .ok e ∧ d.flag ≠ 0 ∧ ∀ maxS i es, scanCatSec maxS i (e :: es) = [] := by
  obtain ⟨e, h1, h2⟩ := C40_lock_lost h hd hl
  refine ⟨e, h1, ?_, fun maxS i es => ?_⟩
  · unfold DDirent.flag; simp [hd, hl, ht]
  · obtain ⟨h3, h4⟩ := h2 maxS i
    obtain ⟨e', g1, g2, _⟩ := encode33_ok h
    rw [h1] at g1
    injection g1 with g1
    subst g1
    have h5 : (DDirent.parse maxS i e).deleted = false := by
      rw [parse33_maxS, parse33_encode h h1]
      exact hd
    unfold scanCatSec
    rw [if_pos]
    unfold DDirent.flag
    rw [h5, h3, h4, ht]
    rfl

/-- A deleted entry keeps its name, track, sector and length, but its type and lock state are overwritten. -/
theorem C40_deleted {d : DDirent} (h : d.Encodable) (hd : d.deleted = true) :
    ∃ e, d.encode = .ok e ∧ ∀ maxS i, (DDirent.parse maxS i e).deleted = true ∧ (DDirent.parse maxS i e).filename = norm33 d.filename ∧
      (DDirent.parse maxS i e).track = d.track ∧ (DDirent.parse maxS i e).sector = d.sector ∧
      (DDirent.parse maxS i e).ftype = 127 ∧ (DDirent.parse maxS i e).locked = true := by
  obtain ⟨e, h1, h2, _⟩ := encode33_ok h
  refine ⟨e, h1, fun maxS i => ?_⟩
  rw [parse33_maxS, parse33_encode h h1]
  unfold DDirent.reread norm33
  simp [hd]

/-- The last of 30 characters of a name is lost, although DOS 3.3 names have 30 characters. -/
theorem C40_name_cut {d : DDirent} (h : d.Encodable) : ∃ e, d.encode = .ok e ∧
    ∀ maxS i, (DDirent.parse maxS i e).filename = norm33 d.filename ∧ (DDirent.parse maxS i e).filename.length ≤ 29 := by
  obtain ⟨e, h1, h2, _⟩ := encode33_ok h
  refine ⟨e, h1, fun maxS i => ?_⟩
  have : (DDirent.parse maxS i e).filename = norm33 d.filename := by
    rw [parse33_maxS, parse33_encode h h1]; rfl
  rw [this]
  refine ⟨rfl, ?_⟩
  unfold norm33
  have h1 := rstripWs_length_le (d.filename.take 29)
  rw [List.length_take] at h1
  omega

/-- Entries with a non-ASCII name or more than 30 characters cannot be encoded. -/
theorem C40_encode_iff (d : DDirent) : (∃ e, d.encode = .ok e) ↔ (∀ c ∈ d.filename, c < 0x80) ∧ d.filename.length ≤ 30 := by
  constructor
  · rintro ⟨e, he⟩
    refine Classical.byContradiction fun h => ?_
    rw [encode33_error h] at he
    cases he
  · rintro ⟨h1, h2⟩
    unfold DDirent.encode
    rw [if_neg (not_not_intro h1), if_neg (by omega)]
    exact ⟨_, rfl⟩

/-! concrete entries -/

/-- `HELLO`, Applesoft, at track 18 sector 9, three sectors -/
def hello33 : DDirent := { filename := [0x48, 0x45, 0x4c, 0x4c, 0x4f], ftype := 2, track := 18, sector := 9, numSectors := 3 }

example : ∃ e, hello33.encode = .ok e ∧ e.length = 35 ∧ ∀ maxS i, DDirent.parse maxS i e =
    { hello33 with fileNum := i, isSane := hello33.sanityCheck maxS } :=
  C40_dirent_roundtrip_partial (by decide) (by decide) rfl rfl (by decide) (by decide) (by decide)

example : ∃ e, ({ hello33 with locked := true } : DDirent).encode = .ok e ∧ (DDirent.parse 560 0 e).locked = false := by
  obtain ⟨e, h1, h2⟩ := C40_lock_lost (d := { hello33 with locked := true }) ⟨by decide, by decide, by decide, fun _ => by decide⟩ rfl rfl
  exact ⟨e, h1, (h2 560 0).1⟩

example : ∃ e, ({ hello33 with locked := true, ftype := 0 } : DDirent).encode = .ok e ∧ scanCatSec 560 0 [e, e] = [] := by
  obtain ⟨e, h1, _, h2⟩ := C40_locked_text_ends_listing (d := { hello33 with locked := true, ftype := 0 })
    ⟨by decide, by decide, by decide, fun _ => by decide⟩ rfl rfl rfl
  exact ⟨e, h1, h2 560 0 [e]⟩

example : ∃ e, ({ hello33 with filename := List.replicate 30 0x41 } : DDirent).encode = .ok e ∧
    (DDirent.parse 560 0 e).filename = List.replicate 29 0x41 := by
  obtain ⟨e, h1, h2⟩ := C40_name_cut (d := { hello33 with filename := List.replicate 30 0x41 }) ⟨by decide, by decide, by decide, fun _ => by decide⟩
  exact ⟨e, h1, by rw [(h2 560 0).1]; decide⟩

end Atr
