import Verif.Lemmas.Cli
/-!
# Commands refine the map operations, for every kind of image

`Sim D R P cap`: the operations of the driver `D` act on images as the map operations do on maps related by `R`, for files
`(n, d)` that satisfy `P` and maps with at most `cap` entries; the only failure is `NotEnoughSpaceOnDisk`.
-/
namespace Atr

/-- the files of an `add` satisfy `P` and fewer than `cap` other files are present -/
def AddLegalG (P : Bytes → Bytes → Prop) (cap : Nat) (force : Bool) : FMap → List (Bytes × Bytes) → Prop
  | _, [] => True
  | M, (n, d) :: fs => P n d ∧ (M.del n).length < cap ∧ AddLegalG P cap force (M.addOne force n d) fs

def Cmd.LegalG (P : Bytes → Bytes → Prop) (cap : Nat) (o : Opts) (M : FMap) : Cmd → Prop
  | .add fs => AddLegalG P cap o.force M fs
  | _ => True

structure Sim {σ : Type} (D : Driver σ) (R : σ → FMap → Prop) (P : Bytes → Bytes → Prop) (cap : Nat) : Prop where
  load : ∀ {m M}, R m M → D.load (D.bytes m) = .ok m
  find_mem : ∀ {m M n}, R m M → n ∈ M.keys → D.find m n = .ok ()
  find_not : ∀ {m M n}, R m M → n ∉ M.keys → D.find m n = .error .fileNotFound
  delete : ∀ {m M n}, R m M → n ∈ M.keys → ∃ m', D.delete n m = (.ok (), m') ∧ R m' (M.del n)
  write : ∀ {m M n d}, R m M → n ∉ M.keys → P n d → M.length < cap →
    (∃ m', D.write n d m = (.ok (), m') ∧ R m' ((n, d) :: M)) ∨ ∃ m', D.write n d m = (.error .notEnoughSpace, m')
  shred : ∀ {m M}, R m M → ∃ m', D.shred m = (.ok (), m') ∧ R m' M

def HoldsG {σ : Type} (D : Driver σ) (R : σ → FMap → Prop) (b : Bytes) (M : FMap) : Prop :=
  ∃ m, D.load b = .ok m ∧ R m M ∧ D.bytes m = b

theorem Sim.holds {σ} {D : Driver σ} {R : σ → FMap → Prop} {P cap} (S : Sim D R P cap) {m M} (r : R m M) : HoldsG D R (D.bytes m) M :=
  ⟨m, S.load r, r, rfl⟩

/-! ### loops -/

theorem saveFile_sim {σ} {D : Driver σ} {R : σ → FMap → Prop} {P : Bytes → Bytes → Prop} {cap : Nat} (S : Sim D R P cap) {m M n d} {o : Opts} (ho : o.dryRun = false) (r : R m M) (hp : P n d)
    (hs : (M.del n).length < cap) :
    (n ∈ M.keys ∧ o.force = false ∧ saveFile D o n d m = (.ok false, m)) ∨
    (¬ (n ∈ M.keys ∧ o.force = false) ∧ ((∃ m', saveFile D o n d m = (.ok true, m') ∧ R m' (M.put n d)) ∨
      ∃ m', saveFile D o n d m = (.error .notEnoughSpace, m'))) := by
  have fin : ∀ {m1 : σ}, R m1 (M.del n) →
      (∃ m', finishSave D o n d m1 = (.ok true, m') ∧ R m' (M.put n d)) ∨
      ∃ m', finishSave D o n d m1 = (.error .notEnoughSpace, m') := by
    intro m1 r1
    have hnn : n ∉ (M.del n).keys := fun hx => (mem_keys_del.mp hx).2 rfl
    unfold finishSave
    rw [if_neg (by simp [ho])]
    rcases S.write r1 hnn hp hs with ⟨m', k1, k2⟩ | ⟨m', k1⟩
    · left
      refine ⟨m', ?_, k2⟩
      rw [show D.write n d m1 = (.ok (), m') from k1]
    · right
      exact ⟨m', by rw [k1]⟩
  by_cases hn : n ∈ M.keys
  · cases hf : o.force with
    | false =>
      left
      refine ⟨hn, rfl, ?_⟩
      unfold saveFile
      rw [S.find_mem r hn]
      simp [hf]
    | true =>
      right
      refine ⟨by simp, ?_⟩
      obtain ⟨m1, k1, k2⟩ := S.delete r hn
      unfold saveFile
      rw [S.find_mem r hn]
      simp only [hf, if_true]
      rw [show D.delete n m = (.ok (), m1) from k1]
      exact fin k2
  · right
    refine ⟨fun hx => hn hx.1, ?_⟩
    unfold saveFile
    rw [S.find_not r hn]
    exact fin (by rw [FMap.del_not hn]; exact r)

theorem addLoop_sim {σ} {D : Driver σ} {R : σ → FMap → Prop} {P : Bytes → Bytes → Prop} {cap : Nat} (S : Sim D R P cap) {o : Opts} (ho : o.dryRun = false) : ∀ (fs : List (Bytes × Bytes)) (m : σ) (M : FMap) (ch : Bool),
    R m M → AddLegalG P cap o.force M fs →
    (∃ m', addLoop D o fs ch m = (.ok (if fs = [] then ch else !(M.lastSkipped o.force fs)), m') ∧
      R m' (M.addAll o.force fs)) ∨
    ∃ m', addLoop D o fs ch m = (.error .notEnoughSpace, m') := by
  intro fs
  induction fs with
  | nil => intro m M ch r _; exact Or.inl ⟨m, rfl, r⟩
  | cons f fs ih =>
    intro m M ch r hl
    obtain ⟨n, d⟩ := f
    obtain ⟨hp, hs, hl⟩ := hl
    rw [if_neg (by simp), lastSkipped_cons]
    show (∃ m', _ ∧ R m' ((M.addOne o.force n d).addAll o.force fs)) ∨ _
    unfold addLoop
    rcases saveFile_sim S ho r hp hs with ⟨k1, k2, k3⟩ | ⟨k1, k3⟩
    · have ha : M.addOne o.force n d = M := if_pos ⟨k1, k2⟩
      rw [k3]
      rw [ha] at hl ⊢
      simp only [decide_eq_true (And.intro k1 k2)]
      rcases ih m M false r hl with ⟨m', q1, q2⟩ | q
      · refine Or.inl ⟨m', ?_, q2⟩
        rw [q1]
        split <;> rfl
      · exact Or.inr q
    · have ha : M.addOne o.force n d = M.put n d := if_neg k1
      rw [ha] at hl ⊢
      rcases k3 with ⟨m1, k3, k4⟩ | ⟨m1, k3⟩
      · rw [k3]
        simp only [decide_eq_false k1]
        rcases ih m1 _ true k4 hl with ⟨m', q1, q2⟩ | q
        · refine Or.inl ⟨m', ?_, q2⟩
          rw [q1]
          split <;> rfl
        · exact Or.inr q
      · rw [k3]; exact Or.inr ⟨m1, rfl⟩

theorem removeLoop_sim {σ} {D : Driver σ} {R : σ → FMap → Prop} {P : Bytes → Bytes → Prop} {cap : Nat} (S : Sim D R P cap) {o : Opts} (ho : o.dryRun = false) : ∀ (ns : List Bytes) (m : σ) (M : FMap) (ch : Bool),
    R m M → ∃ m' c, removeLoop D o ns ch m = (.ok c, m') ∧ R m' (ns.foldl FMap.del M) ∧
      (c = false → m' = m ∧ ch = false) := by
  intro ns
  induction ns with
  | nil => intro m M ch r; exact ⟨m, ch, rfl, r, fun hc => ⟨rfl, hc⟩⟩
  | cons n ns ih =>
    intro m M ch r
    unfold removeLoop
    by_cases hn : n ∈ M.keys
    · obtain ⟨m1, k1, k2⟩ := S.delete r hn
      rw [S.find_mem r hn]
      simp only [ho, if_neg Bool.false_ne_true]
      rw [show D.delete n m = (.ok (), m1) from k1]
      obtain ⟨m', c, q1, q2, q3⟩ := ih m1 _ true k2
      exact ⟨m', c, q1, q2, fun hc => absurd (q3 hc).2 (by simp)⟩
    · rw [S.find_not r hn]
      have := ih m M ch r
      rw [List.foldl_cons, FMap.del_not hn]
      exact this

/-! ### dry runs of mounted volumes do not fail -/

theorem addLoop_dry_sim {σ} {D : Driver σ} {R : σ → FMap → Prop} {P : Bytes → Bytes → Prop} {cap : Nat} (S : Sim D R P cap) {o : Opts} (ho : o.dryRun = true) : ∀ (fs : List (Bytes × Bytes)) (m : σ) (M : FMap),
    R m M → ∃ m', addLoop D o fs false m = (.ok false, m') := by
  intro fs
  induction fs with
  | nil => intro m M r; exact ⟨m, rfl⟩
  | cons f fs ih =>
    intro m M r
    obtain ⟨n, d⟩ := f
    unfold addLoop saveFile
    simp only [finishSave_dry D ho]
    by_cases hn : n ∈ M.keys
    · rw [S.find_mem r hn]
      cases hf : o.force with
      | false => simp only [if_neg Bool.false_ne_true]; exact ih m M r
      | true =>
        obtain ⟨m1, k1, k2⟩ := S.delete r hn
        simp only [if_true]
        rw [show D.delete n m = (.ok (), m1) from k1]
        exact ih m1 _ k2
    · rw [S.find_not r hn]; exact ih m M r

theorem removeLoop_dry_sim {σ} {D : Driver σ} {R : σ → FMap → Prop} {P : Bytes → Bytes → Prop} {cap : Nat} (S : Sim D R P cap) {o : Opts} (ho : o.dryRun = true) : ∀ (ns : List Bytes) (m : σ) (M : FMap),
    R m M → ∃ m', removeLoop D o ns false m = (.ok false, m') := by
  intro ns
  induction ns with
  | nil => intro m M r; exact ⟨m, rfl⟩
  | cons n ns ih =>
    intro m M r
    unfold removeLoop
    by_cases hn : n ∈ M.keys
    · rw [S.find_mem r hn]; simp only [ho, if_true]; exact ih m M r
    · rw [S.find_not r hn]; exact ih m M r

theorem run_sim {σ} {D : Driver σ} {R : σ → FMap → Prop} {P : Bytes → Bytes → Prop} {cap : Nat} (S : Sim D R P cap) {b M} {o : Opts} {c : Cmd} (hh : HoldsG D R b M) (hl : c.LegalG P cap o M) :
    HoldsG D R (c.run D o b).2 (c.specR o M (c.run D o b).1) ∧
      ((c.run D o b).1 = .ok () ∨
        ((c.run D o b).1 = .error .notEnoughSpace ∧ (c.run D o b).2 = b)) := by
  obtain ⟨m, h1, r, h3⟩ := id hh
  unfold Cmd.run
  rw [h1]
  simp only
  cases ho : o.dryRun with
  | true =>
    have hok : ∃ m', c.exec D o m = (.ok false, m') := by
      cases c with
      | add fs => exact addLoop_dry_sim S ho fs m M r
      | remove ns => exact removeLoop_dry_sim S ho ns m M r
      | shred => exact ⟨m, by unfold Cmd.exec; simp [ho]⟩
    obtain ⟨m', hok⟩ := hok
    rw [hok]
    refine ⟨?_, Or.inl rfl⟩
    have : c.spec o M = M := by cases c <;> simp [Cmd.spec, ho]
    show HoldsG D R b (c.spec o M)
    rw [this]; exact hh
  | false =>
    cases c with
    | add fs =>
      rw [show Cmd.exec D o (.add fs) m = addLoop D o fs false m from rfl]
      rcases addLoop_sim S ho fs m M false r hl with ⟨m', q1, q2⟩ | ⟨m', q1⟩
      · rw [q1]
        by_cases hf : fs = []
        · subst hf
          refine ⟨?_, Or.inl rfl⟩
          show HoldsG D R b (Cmd.spec o M (.add []))
          simpa [Cmd.spec, FMap.lastSkipped] using hh
        · rw [if_neg hf]
          cases hs : M.lastSkipped o.force fs with
          | true =>
            refine ⟨?_, Or.inl rfl⟩
            show HoldsG D R b (Cmd.spec o M (.add fs))
            simpa [Cmd.spec, hs] using hh
          | false =>
            refine ⟨?_, Or.inl rfl⟩
            show HoldsG D R (D.bytes m') (Cmd.spec o M (.add fs))
            simpa [Cmd.spec, hs, ho] using (S.holds q2)
      · rw [q1]; exact ⟨hh, Or.inr ⟨rfl, rfl⟩⟩
    | remove ns =>
      rw [show Cmd.exec D o (.remove ns) m = removeLoop D o ns false m from rfl]
      obtain ⟨m', c, q1, q2, q3⟩ := removeLoop_sim S ho ns m M false r
      rw [q1]
      have hsp : Cmd.spec o M (.remove ns) = ns.foldl FMap.del M := by simp [Cmd.spec, ho]
      cases c with
      | true => exact ⟨by show HoldsG D R (D.bytes m') (Cmd.spec o M (.remove ns)); rw [hsp]; exact (S.holds q2), Or.inl rfl⟩
      | false =>
        refine ⟨?_, Or.inl rfl⟩
        show HoldsG D R b (Cmd.spec o M (.remove ns))
        rw [hsp, ← h3, ← (q3 rfl).1]; exact (S.holds q2)
    | shred =>
      obtain ⟨m', q1, q2⟩ := S.shred r
      have hx : Cmd.exec D o .shred m = (.ok true, m') := by
        unfold Cmd.exec
        simp only [ho, if_neg Bool.false_ne_true]
        rw [show D.shred m = (.ok (), m') from q1]
      rw [hx]
      exact ⟨(S.holds q2), Or.inl rfl⟩


/-- a history in which each command has its own driver (the drivers differ in the file type they write) -/
def runHistoryD {σ : Type} : List (Driver σ × Opts × Cmd) → Bytes → List (Except Err Unit) × Bytes
  | [], b => ([], b)
  | (D, o, c) :: cs, b =>
    let r := c.run D o b
    let rest := runHistoryD cs r.2
    (r.1 :: rest.1, rest.2)

def HistoryLegalG (P : Bytes → Bytes → Prop) (cap : Nat) : FMap → List (Opts × Cmd) → List (Except Err Unit) → Prop
  | M, (o, c) :: cs, r :: rs => c.LegalG P cap o M ∧ HistoryLegalG P cap (c.specR o M r) cs rs
  | _, _, _ => True

theorem history_sim {σ} {D0 : Driver σ} {R : σ → FMap → Prop} {P : Bytes → Bytes → Prop} {cap : Nat} :
    ∀ (cs : List (Driver σ × Opts × Cmd)) (b : Bytes) (M : FMap),
    (∀ x ∈ cs, Sim x.1 R P cap ∧ x.1.load = D0.load ∧ x.1.bytes = D0.bytes) →
    HoldsG D0 R b M → HistoryLegalG P cap M (cs.map (·.2)) (runHistoryD cs b).1 →
    HoldsG D0 R (runHistoryD cs b).2 (specHistory M (cs.map (·.2)) (runHistoryD cs b).1) := by
  intro cs
  induction cs with
  | nil => intro b M _ hh _; exact hh
  | cons c cs ih =>
    intro b M hS hh hl
    obtain ⟨D, o, c⟩ := c
    obtain ⟨h1, h2⟩ := hl
    obtain ⟨S, e1, e2⟩ := hS _ List.mem_cons_self
    have hhd : HoldsG D R b M := by unfold HoldsG; rw [e1, e2]; exact hh
    have := (run_sim S hhd h1).1
    unfold HoldsG at this
    rw [e1, e2] at this
    exact ih _ _ (fun x hx => hS x (List.mem_cons_of_mem _ hx)) this h2

end Atr
