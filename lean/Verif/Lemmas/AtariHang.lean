import Verif.Lemmas.AtariInv
/-! # Chain reads of MyDOS entries: termination and endless loops -/
namespace Atr

/-- the read loop started in `st` ends after exactly `k` sector reads (normally or with an exception) -/
inductive Ends (d : ADirent) (h : AHeader) (b : Bytes) : Nat → ReadSt → Prop
  | err {st e} : d.readSector h b st = .error e → Ends d h b 1 st
  | last {st st' pos n} : d.readSector h b st = .ok (st', true, pos, n) → Ends d h b 1 st
  | step {st st' pos n k} : d.readSector h b st = .ok (st', false, pos, n) → Ends d h b k st' → Ends d h b (k + 1) st

theorem Ends.pos {d h b k st} (e : Ends d h b k st) : 0 < k := by cases e <;> omega

theorem Ends.unique {d h b k st} (e : Ends d h b k st) : ∀ {j}, Ends d h b j st → j = k := by
  induction e with
  | err h1 =>
    intro j e'
    cases e' with
    | err => rfl
    | last h2 => rfl
    | step h2 _ => rw [h1] at h2; cases h2
  | last h1 =>
    intro j e'
    cases e' with
    | err h2 => rfl
    | last h2 => rfl
    | step h2 _ => rw [h1] at h2; injection h2 with h2; injection h2 with _ h2; injection h2 with h2 _; cases h2
  | step h1 _ ih =>
    intro j e'
    cases e' with
    | err h2 => rw [h1] at h2; cases h2
    | last h2 => rw [h1] at h2; injection h2 with h2; injection h2 with _ h2; injection h2 with h2 _; cases h2
    | step h2 e2 =>
      rw [h1] at h2; injection h2 with h2; injection h2 with h2 _; subst h2
      rw [ih e2]

theorem processRaw_not_hang {d : ADirent} {st : ReadSt} {raw : Bytes} : d.processRaw st raw ≠ .error .hang := by
  unfold ADirent.processRaw
  split
  · simp
  · simp only
    split
    · simp
    · split
      · simp
      · split <;> simp

theorem readSector_not_hang {d : ADirent} {h : AHeader} {b : Bytes} {st : ReadSt} : d.readSector h b st ≠ .error .hang := by
  unfold ADirent.readSector
  cases hr : h.getRawBytes b st.cur with
  | error e => simp [getRawBytes_error hr]
  | ok q =>
    obtain ⟨raw, pos, k⟩ := q
    simp only
    cases hp : d.processRaw st raw with
    | error e => intro hc; injection hc with hc; subst hc; exact processRaw_not_hang hp
    | ok q => simp

/-- running out of fuel means that the loop does not end within that many reads -/
theorem readLoop_hang_iff {d : ADirent} {h : AHeader} {b : Bytes} : ∀ (fuel : Nat) (st : ReadSt),
    d.readLoop h b fuel st = .error .hang ↔ ¬ ∃ k, k ≤ fuel ∧ Ends d h b k st := by
  intro fuel
  induction fuel with
  | zero =>
    intro st
    simp only [ADirent.readLoop, true_iff]
    rintro ⟨k, hk, e⟩
    have := e.pos; omega
  | succ fuel ih =>
    intro st
    simp only [ADirent.readLoop]
    cases hr : d.readSector h b st with
    | error e =>
      simp only
      have hne : e ≠ .hang := by rintro rfl; exact readSector_not_hang hr
      constructor
      · intro hc; injection hc with hc; exact absurd hc hne
      · intro hc; exact absurd ⟨1, by omega, Ends.err hr⟩ hc
    | ok q =>
      obtain ⟨st', last, pos, n⟩ := q
      cases last with
      | true =>
        simp only [if_true]
        constructor
        · intro hc; cases hc
        · intro hc; exact absurd ⟨1, by omega, Ends.last hr⟩ hc
      | false =>
        simp only [Bool.false_eq_true, if_false]
        have hstep : (∃ k, k ≤ fuel + 1 ∧ Ends d h b k st) ↔ ∃ k, k ≤ fuel ∧ Ends d h b k st' := by
          constructor
          · rintro ⟨k, hk, e⟩
            cases e with
            | err h2 => rw [hr] at h2; cases h2
            | last h2 => rw [hr] at h2; injection h2 with h2; injection h2 with _ h2; injection h2 with h2 _; cases h2
            | step h2 e =>
              rw [hr] at h2; injection h2 with h2; injection h2 with h2 _; subst h2
              exact ⟨_, by omega, e⟩
          · rintro ⟨k, hk, e⟩; exact ⟨k + 1, by omega, Ends.step hr e⟩
        rw [hstep, ← ih]
        cases d.readLoop h b fuel st' <;> simp

/-- the sectors visited by an ending read are distinct: their remaining numbers of reads differ -/
theorem Ends.path {d : ADirent} (hd : d.mydos = true) {h : AHeader} {b : Bytes} {n : Nat} (g : h.Geom n) {k st} (e : Ends d h b k st) :
    ∃ L : List Nat, L.length + 1 = k ∧ L.Nodup ∧ (∀ s ∈ L, 1 ≤ s ∧ s ≤ h.maxSectors) ∧
      (∀ s ∈ L, ∃ j, j ≤ k ∧ Ends d h b j ⟨s, st.seen⟩) := by
  induction e with
  | err h1 => exact ⟨[], rfl, by simp, by simp, by simp⟩
  | last h1 => exact ⟨[], rfl, by simp, by simp, by simp⟩
  | @step st st' pos m k h1 e1 ih =>
    obtain ⟨L, l1, l2, l3, l4⟩ := ih
    obtain ⟨raw, sz, r1, r2, _⟩ := readSector_ok h1
    have hseen : st'.seen = st.seen := by
      unfold ADirent.processRaw at r2
      split at r2
      · cases r2
      · injection r2 with r2; injection r2 with r2 _; rw [← r2]
    have hv := getRawBytes_ok g r1
    refine ⟨st.cur :: L, by simp; omega, ?_, ?_, ?_⟩
    · rw [List.nodup_cons]
      refine ⟨?_, l2⟩
      intro hm
      obtain ⟨j, hj, ej⟩ := l4 _ hm
      rw [hseen] at ej
      have := Ends.unique (Ends.step h1 e1) ej
      omega
    · intro s hs
      rcases List.mem_cons.mp hs with rfl | hs
      · exact hv
      · exact l3 s hs
    · intro s hs
      rcases List.mem_cons.mp hs with rfl | hs
      · exact ⟨k + 1, by omega, Ends.step h1 e1⟩
      · obtain ⟨j, hj, ej⟩ := l4 s hs
        rw [hseen] at ej
        exact ⟨j, by omega, ej⟩

theorem Ends.bound {d : ADirent} (hd : d.mydos = true) {h : AHeader} {b : Bytes} {n : Nat} (g : h.Geom n) {k st} (e : Ends d h b k st) :
    k ≤ h.maxSectors + 1 := by
  obtain ⟨L, l1, l2, l3, _⟩ := e.path hd g
  have := nodup_length_le (h.maxSectors + 1) (0 :: L) (List.nodup_cons.mpr ⟨fun hc => by have := l3 0 hc; omega, l2⟩) (by
    intro x hx
    rcases List.mem_cons.mp hx with rfl | hx
    · omega
    · have := l3 x hx; omega)
  simp at this; omega

theorem readChain_err {d : ADirent} {h : AHeader} {b : Bytes} {e} (hs : d.isSane = true) (h0 : 0 ≤ d.startingSector)
    (hr : d.readSector h b ⟨d.startingSector.toNat, []⟩ = .error e) : d.readChain h b = .error e := by
  unfold ADirent.readChain
  rw [hs, if_neg (by decide), if_neg (by omega)]
  simp only [ADirent.readLoop]
  rw [hr]

theorem readChain_last {d : ADirent} {h : AHeader} {b : Bytes} {st' pos n} (hs : d.isSane = true) (h0 : 0 ≤ d.startingSector)
    (hr : d.readSector h b ⟨d.startingSector.toNat, []⟩ = .ok (st', true, pos, n)) :
    d.readChain h b = .ok [(d.startingSector.toNat, pos, n)] := by
  unfold ADirent.readChain
  rw [hs, if_neg (by decide), if_neg (by omega)]
  simp only [ADirent.readLoop]
  rw [hr]
  rfl

end Atr
