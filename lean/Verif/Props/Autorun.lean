import Verif.Props.BLoad
import Verif.Props.System
/-!
# C121: programs as `AUTORUN.SYS` on the templates with Atari DOS

Atari DOS 2 loads the file `AUTORUN.SYS` when the computer starts.  A program that is to start by itself is assembled to this name on
a disk made from a template with DOS, again and again while the program is developed, beside any number of other programs and of
commands that add or remove files.
-/
namespace Atr

/-- the command neither removes nor replaces the file `keep` -/
def Cmd.Spares (keep : Bytes) (o : Opts) : Cmd → Prop
  | .add fs => o.force = true → ∀ x ∈ fs, x.1 ≠ keep
  | .remove ns => keep ∉ ns
  | .shred => True

/-- disks made from `b0` by the commands `assemble`, `add`, `remove` and `shred` with names of new files from `N`; none removes or
replaces the file `keep` -/
inductive DevelopedA (N : List Bytes) (keep : Bytes) (b0 : Bytes) : Bytes → Prop
  | start : DevelopedA N keep b0 b0
  | assemble {b : Bytes} (o : Opts) (output : Bytes) (segs : List Seg) (run : Option Nat) : DevelopedA N keep b0 b → output ∈ N →
      Canon83 output → (o.force = true → output ≠ keep) → DevelopedA N keep b0 (runAssemble atariDriver o .xex output segs run b).2
  | command {b : Bytes} (o : Opts) (c : Cmd) : DevelopedA N keep b0 b → c.Within N → c.Spares keep o →
      DevelopedA N keep b0 (c.run atariDriver o b).2

/-! ### the files that are written have at least one byte -/

theorem splice_ne_nil {a v : Bytes} {i : Nat} (h : a ≠ []) : splice a i v ≠ [] := by
  have := List.length_pos_iff.mpr h
  apply List.length_pos_iff.mp
  unfold splice
  simp only [List.length_append, List.length_take, List.length_drop]
  omega

theorem bsaveFill_ne_nil (o : Int) : ∀ (segs : List Seg) (im : Bytes), im ≠ [] → bsaveFill o segs im ≠ [] := by
  intro segs
  induction segs with
  | nil => intro im h; exact h
  | cons s segs ih => intro im h; exact ih _ (splice_ne_nil h)

theorem createExecutable_ne_nil {k : ExeKind} {output : Bytes} {segs : List Seg} {run : Option Nat} {x : Bytes}
    (h : createExecutable k output segs run = .ok x) : x ≠ [] := by
  unfold createExecutable at h
  split at h
  · rw [xex_bytes h]; exact List.cons_ne_nil _ _
  · have build : ∀ (o : Int) (l : List Seg) (j : Bytes),
        bsaveFill o l (splice (enc16 (o % 65536).toNat ++ enc16 (((bsaveLast segs : Int) - o) % 65536).toNat ++
          List.replicate ((bsaveLast segs : Int) - o).toNat 0) 4 j) ≠ [] := by
      intro o l j
      refine bsaveFill_ne_nil _ _ _ (splice_ne_nil ?_)
      unfold enc16
      exact List.cons_ne_nil _ _
    unfold getBsave at h
    simp only at h
    repeat' split at h
    all_goals first
      | cases h; done
      | (injection h with h; rw [← h]; exact build _ _ _)

/-! ### one command -/

theorem length_del_lt {h m M} {N : List Bytes} {name : Bytes} (r : Rep h m M) (hN : N.length ≤ 64) (hk : ∀ k ∈ M.keys, k ∈ N) (hn : name ∈ N) :
    (M.del name).length < 64 := by
  have hsub : ∀ k ∈ (M.del name).keys, k ∈ M.keys ∧ k ≠ name := by
    intro k hkk
    unfold FMap.keys FMap.del at hkk
    obtain ⟨y, hy, rfl⟩ := List.mem_map.mp hkk
    rw [List.mem_filter] at hy
    exact ⟨List.mem_map.mpr ⟨y, hy.1, rfl⟩, by simpa using hy.2⟩
  have hnd : (M.del name).keys.Nodup := by
    have := r.nodup
    unfold FMap.keys FMap.del at *
    exact this.sublist (List.filter_sublist.map _)
  have := nodup_subset_length (name :: (M.del name).keys) N
    (List.nodup_cons.mpr ⟨fun hx => (hsub _ hx).2 rfl, hnd⟩) (by
      intro k hkk
      rcases List.mem_cons.mp hkk with rfl | hkk
      · exact hn
      · exact hk _ (hsub _ hkk).1)
  unfold FMap.keys at this
  simp only [List.length_cons, List.length_map] at this
  omega

/-- what a saved file leaves: a volume `m1` without the name, reached without removing `keep`, and the write -/
theorem saved_reach {h m0 m m' M} {o : Opts} {name x keep : Bytes} (r : Rep h m M) (hr : ReachBut keep m0 m)
    (hc : Canon83 name) (hx : x ≠ []) (hfull : (M.del name).length < 64) (hf : o.force = true → name ≠ keep)
    (hs : saveFile atariDriver o name x m = (.ok true, m')) :
    Rep h m' ((name, x) :: M.del name) ∧ ReachBut keep m0 m' ∧
      ∃ m1 ds1, Mounted m1 ds1 ∧ ReachBut keep m0 m1 ∧ (∀ d ∈ m.files, d.filename ≠ name → d ∈ m1.files) ∧ name ∉ m1.names ∧ m1.files.length < 64 ∧
        AImg.writeFile name x m1 = (.ok (), m') := by
  have fin : ∀ m1, finishSave atariDriver o name x m1 = (.ok true, m') → AImg.writeFile name x m1 = (.ok (), m') := by
    intro m1 h
    unfold finishSave at h
    split at h
    · cases h
    · rw [show atariDriver.write name x m1 = AImg.writeFile name x m1 from rfl] at h
      cases hw : AImg.writeFile name x m1 with
      | mk r m2 =>
        rw [hw] at h
        cases r with
        | error e => cases h
        | ok u =>
          injection h with _ h
          rw [h]
  have last : ∀ m1, Rep h m1 (M.del name) → ReachBut keep m0 m1 → (∀ d ∈ m.files, d.filename ≠ name → d ∈ m1.files) →
      finishSave atariDriver o name x m1 = (.ok true, m') →
      Rep h m' ((name, x) :: M.del name) ∧ ReachBut keep m0 m' ∧
      ∃ m1 ds1, Mounted m1 ds1 ∧ ReachBut keep m0 m1 ∧ (∀ d ∈ m.files, d.filename ≠ name → d ∈ m1.files) ∧ name ∉ m1.names ∧ m1.files.length < 64 ∧
        AImg.writeFile name x m1 = (.ok (), m') := by
    intro m1 r1 hr1 hkeep hfi
    have hw := fin m1 hfi
    have hnk : name ∉ (M.del name).keys := by
      unfold FMap.keys FMap.del
      simp
    have hnn : name ∉ m1.names := fun hx => hnk (r1.names.subset hx)
    have hl : m1.files.length < 64 := by rw [r1.length]; exact hfull
    obtain ⟨ds1, d1, _⟩ := id r1
    refine ⟨?_, ?_, m1, ds1, d1, hr1, hkeep, hnn, hl, hw⟩
    · rcases r1.write hnk hc hx hfull with ⟨m2, k1, k2, _⟩ | ⟨k1, _⟩
      · rw [hw] at k1
        injection k1 with _ k1
        rw [k1]; exact k2
      · rw [hw] at k1
        injection k1 with k1 _
        cases k1
    · have := ReachBut.step (.write name x) hr1 ⟨hx, hc.2, hl, by rw [hc.1]; exact hnn⟩ (fun h => by cases h)
      rwa [show (Op.run (.write name x) m1).2 = m' from congrArg Prod.snd hw] at this
  unfold saveFile at hs
  by_cases hin : name ∈ M.keys
  · rw [r.find_mem hin] at hs
    simp only at hs
    obtain ⟨m1, k1, k2⟩ := r.delete hin
    obtain ⟨ds, dm, _⟩ := id r
    have hinn := r.names.symm.subset hin
    split at hs
    · rename_i hfo
      rw [show atariDriver.delete name m = (.ok (), m1) from k1] at hs
      have hrun : (Op.run (.delete name) m).2 = m1 := congrArg Prod.snd k1
      have hst := op_step dm (.delete name) (Or.inl hinn)
      rw [hrun] at hst
      obtain ⟨_, _, _, k3, _⟩ := hst
      refine last m1 k2 ?_ (fun d hd hne => (k3 d hd (fun h => by injection h with h; exact hne h.symm)).1) hs
      have := ReachBut.step (.delete name) hr (Or.inl hinn) (fun h => by injection h with h; exact hf hfo h)
      rwa [hrun] at this
    · cases hs
  · rw [r.find_not hin] at hs
    exact last m (by rw [FMap.del_not hin]; exact r) hr (fun d hd _ => hd) hs

/-- the command as a whole: nothing happens, or a file is saved -/
theorem assemble_cases {h m M} {o : Opts} {output : Bytes} {segs : List Seg} {run : Option Nat} (r : Rep h m M) :
    (runAssemble atariDriver o .xex output segs run m.bytes).2 = m.bytes ∨
      ∃ x m', createExecutable .xex output segs run = .ok x ∧ saveFile atariDriver o output x m = (.ok true, m') ∧
        (runAssemble atariDriver o .xex output segs run m.bytes).2 = m'.bytes := by
  obtain ⟨ds, h1, _⟩ := r
  unfold runAssemble
  rw [show atariDriver.load m.bytes = .ok m from h1.1]
  simp only
  cases hce : createExecutable .xex output segs run with
  | error e => exact .inl rfl
  | ok x =>
    simp only
    cases hs : saveFile atariDriver o output x m with
    | mk q m' =>
      cases q with
      | error e => exact .inl rfl
      | ok c =>
        cases c with
        | false => exact .inl rfl
        | true => exact .inr ⟨x, m', rfl, hs, rfl⟩

theorem keys_put {M : FMap} {N : List Bytes} {n d : Bytes} (hk : ∀ k ∈ M.keys, k ∈ N) (hn : n ∈ N) : ∀ k ∈ FMap.keys ((n, d) :: M.del n), k ∈ N := by
  intro k hkk
  unfold FMap.keys at hkk
  rcases List.mem_cons.mp hkk with rfl | hkk
  · exact hn
  · apply hk
    obtain ⟨y, hy, rfl⟩ := List.mem_map.mp hkk
    exact List.mem_map.mpr ⟨y, (List.mem_filter.mp hy).1, rfl⟩

theorem addLoop_reach {h m0 N} {keep : Bytes} {o : Opts} (hN : List.length N ≤ 64) (hdry : o.dryRun = false) :
    ∀ (fs : List (Bytes × Bytes)) (m : AImg) (M : FMap) (ch : Bool), Rep h m M → ReachBut keep m0 m → (∀ k ∈ M.keys, k ∈ N) →
    (∀ x ∈ fs, x.1 ∈ N ∧ Canon83 x.1 ∧ x.2 ≠ []) → (o.force = true → ∀ x ∈ fs, x.1 ≠ keep) →
    (∃ m' M' c, addLoop atariDriver o fs ch m = (.ok c, m') ∧ Rep h m' M' ∧ ReachBut keep m0 m' ∧ ∀ k ∈ M'.keys, k ∈ N) ∨
    ∃ e m', addLoop atariDriver o fs ch m = (.error e, m') := by
  intro fs
  induction fs with
  | nil => intro m M ch r hr hk _ _; exact .inl ⟨m, M, ch, rfl, r, hr, hk⟩
  | cons f fs ih =>
    intro m M ch r hr hk hw hs
    obtain ⟨n, d⟩ := f
    obtain ⟨w1, w2, w3⟩ := hw _ List.mem_cons_self
    have hfull := length_del_lt r hN hk w1
    have hw' := fun x hx => hw x (List.mem_cons_of_mem _ hx)
    have hs' := fun hf x hx => hs hf x (List.mem_cons_of_mem _ hx)
    unfold addLoop
    rcases saveFile_rep hdry r w2 w3 hfull with ⟨_, _, k3⟩ | ⟨_, ⟨m1, k3, _⟩ | ⟨m1, k3⟩⟩
    · rw [k3]
      exact ih m M false r hr hk hw' hs'
    · obtain ⟨q1, q2, _⟩ := saved_reach r hr w2 w3 hfull (fun hf => hs hf _ List.mem_cons_self) k3
      rw [k3]
      exact ih m1 _ true q1 q2 (keys_put hk w1) hw' hs'
    · rw [k3]
      exact .inr ⟨_, m1, rfl⟩

theorem removeLoop_reach {h m0} {N : List Bytes} {keep : Bytes} {o : Opts} (hdry : o.dryRun = false) :
    ∀ (ns : List Bytes) (m : AImg) (M : FMap) (ch : Bool), Rep h m M → ReachBut keep m0 m → (∀ k ∈ M.keys, k ∈ N) → keep ∉ ns →
    ∃ m' M' c, removeLoop atariDriver o ns ch m = (.ok c, m') ∧ Rep h m' M' ∧ ReachBut keep m0 m' ∧ ∀ k ∈ M'.keys, k ∈ N := by
  intro ns
  induction ns with
  | nil => intro m M ch r hr hk _; exact ⟨m, M, ch, rfl, r, hr, hk⟩
  | cons n ns ih =>
    intro m M ch r hr hk hs
    have hn' : keep ∉ ns := fun hx => hs (List.mem_cons_of_mem _ hx)
    unfold removeLoop
    by_cases hn : n ∈ M.keys
    · obtain ⟨m1, k1, k2⟩ := r.delete hn
      rw [r.find_mem hn]
      simp only [hdry, if_neg Bool.false_ne_true]
      rw [show atariDriver.delete n m = (.ok (), m1) from k1]
      refine ih m1 _ true k2 ?_ ?_ hn'
      · have := ReachBut.step (.delete n) hr (Or.inl (r.names.symm.subset hn))
          (fun hx => by injection hx with hx; exact hs (hx ▸ List.mem_cons_self))
        rwa [show (Op.run (.delete n) m).2 = m1 from congrArg Prod.snd k1] at this
      · intro k hkk
        exact hk k (mem_keys_del.mp hkk).1
    · rw [r.find_not hn]
      exact ih m M ch r hr hk hn'

/-- the volume after one of the other commands -/
theorem command_reach {h m0 m M} {N : List Bytes} {keep : Bytes} {o : Opts} {c : Cmd} (hmax : h.maxSectors < 1280) (hN : N.length ≤ 64)
    (r : Rep h m M) (hr : ReachBut keep m0 m) (hk : ∀ k ∈ M.keys, k ∈ N) (hw : c.Within N) (hs : c.Spares keep o) :
    ∃ m' M', m'.bytes = (c.run atariDriver o m.bytes).2 ∧ Rep h m' M' ∧ ReachBut keep m0 m' ∧ ∀ k ∈ M'.keys, k ∈ N := by
  obtain ⟨ds, h1, h2, _⟩ := id r
  unfold Cmd.run
  rw [show atariDriver.load m.bytes = .ok m from h1.1]
  simp only
  have stay : ∃ m' M', m'.bytes = m.bytes ∧ Rep h m' M' ∧ ReachBut keep m0 m' ∧ ∀ k ∈ M'.keys, k ∈ N := ⟨m, M, rfl, r, hr, hk⟩
  cases hdry : o.dryRun with
  | true =>
    have hok : ∃ m', c.exec atariDriver o m = (.ok false, m') := by
      cases c with
      | add fs => exact addLoop_dry_ok hdry fs m M r
      | remove ns => exact removeLoop_dry_ok hdry ns m M r
      | shred => exact ⟨m, by unfold Cmd.exec; simp [hdry]⟩
    obtain ⟨m', hok⟩ := hok
    rw [hok]
    exact stay
  | false =>
    have key : (∃ m' M' ch, c.exec atariDriver o m = (.ok ch, m') ∧ Rep h m' M' ∧ ReachBut keep m0 m' ∧ ∀ k ∈ M'.keys, k ∈ N) ∨
        ∃ e m', c.exec atariDriver o m = (.error e, m') := by
      cases c with
      | add fs => exact addLoop_reach hN hdry fs m M false r hr hk hw hs
      | remove ns => exact .inl (removeLoop_reach hdry ns m M false r hr hk hs)
      | shred =>
        obtain ⟨m', q1, q2⟩ := r.shred 0 hmax
        refine .inl ⟨m', M, true, ?_, q2, ?_, hk⟩
        · unfold Cmd.exec
          simp only [hdry, if_neg Bool.false_ne_true]
          rw [show atariDriver.shred m = (.ok (), m') from q1]
        · have := ReachBut.step (.shred 0) hr (show m.hdr.maxSectors < 1280 by rw [h2]; exact hmax) (fun hx => by cases hx)
          rwa [show (Op.run (.shred 0) m).2 = m' from congrArg Prod.snd q1] at this
    rcases key with ⟨m', M', ch, q1, q2, q3, q4⟩ | ⟨e, m', q1⟩
    · rw [q1]
      cases ch with
      | false => exact stay
      | true => exact ⟨m', M', rfl, q2, q3, q4⟩
    · rw [q1]
      exact stay

/-- the volume after such commands -/
theorem developedA_reach {h b0 m0 M0 N keep b} (r0 : Rep h m0 M0) (hb0 : m0.bytes = b0) (hmax : h.maxSectors < 1280) (hN : N.length ≤ 64)
    (hM : ∀ k ∈ M0.keys, k ∈ N)
    (hd : DevelopedA N keep b0 b) : ∃ m M, m.bytes = b ∧ Rep h m M ∧ ReachBut keep m0 m ∧ ∀ k ∈ M.keys, k ∈ N := by
  induction hd with
  | start => exact ⟨m0, M0, hb0, r0, .start, hM⟩
  | @assemble b o output segs run _ ho hc hf ih =>
    obtain ⟨m, M, rfl, r, hr, hk⟩ := ih
    rcases assemble_cases (o := o) (output := output) (segs := segs) (run := run) r with h1 | ⟨x, m', h1, h2, h3⟩
    · exact ⟨m, M, h1.symm, r, hr, hk⟩
    · obtain ⟨k1, k2, _⟩ := saved_reach r hr hc (createExecutable_ne_nil h1) (length_del_lt r hN hk ho) hf h2
      exact ⟨m', _, h3.symm, k1, k2, keys_put hk ho⟩
  | @command b o c _ hw hs ih =>
    obtain ⟨m, M, rfl, r, hr, hk⟩ := ih
    exact command_reach hmax hN r hr hk hw hs

theorem sysFiles_keys {h b fs} {N : List Bytes} (hM : ∀ f ∈ fs, f.filename ∈ N) : ∀ k ∈ FMap.keys (sysFiles h b fs), k ∈ N := by
  intro k hk
  unfold FMap.keys sysFiles at hk
  rw [List.map_map] at hk
  obtain ⟨x, hx, rfl⟩ := List.mem_map.mp hk
  apply hM
  rw [← map_sysStarts fs 4]
  exact List.mem_map.mpr ⟨x, hx, rfl⟩

/-- **C121, DOS is kept.** After any number of commands, whether they succeed or not, the boot sectors are those of the template, and a
file of DOS that no command replaces begins in the same sector and has the same contents. -/
theorem C121_kept {h b0 fs N b} (D : SystemDisk h b0 fs) (hmax : h.maxSectors < 1280) (hN : N.length ≤ 64) (hM : ∀ f ∈ fs, f.filename ∈ N) {i : Nat} {x : Nat × SysFile}
    (hx : (sysStarts 4 fs)[i]? = some x) (hd : DevelopedA N x.2.filename b0 b) :
    b.take (bootEnd h) = b0.take (bootEnd h) ∧ ∃ m, AImg.open b = .ok m ∧ ∃ d ∈ m.files, d.filename = x.2.filename ∧
      d.startingSector = x.1 ∧ d.numSectors = x.2.count ∧ d.getFile m.hdr m.bytes = .ok (sysData h b0 x) := by
  obtain ⟨m0, ds0, h1, h2, h3, h4, h5⟩ := (C119_holds D).1
  obtain ⟨m, M, rfl, r, hr, _⟩ := developedA_reach ⟨ds0, h2, h4, h5⟩ h3 hmax hN (sysFiles_keys hM) hd
  obtain ⟨k1, k2⟩ := C119_boots D h1 hx hr
  obtain ⟨ds, g, _⟩ := r
  exact ⟨k1, m, g.1, k2⟩

/-- the name of the file that DOS loads at the start -/
def autorunName : Bytes := [0x41, 0x55, 0x54, 0x4f, 0x52, 0x55, 0x4e, 0x2e, 0x53, 0x59, 0x53]

/-- the same name as it is searched in the directory -/
def autorunKey : Bytes := [0x41, 0x55, 0x54, 0x4f, 0x52, 0x55, 0x4e, 0x20, 0x53, 0x59, 0x53]

theorem autorun_canon : Canon83 autorunName := by unfold Canon83; decide

/-- **C121, the program.** After any number of commands, a command `assemble -f -o AUTORUN.SYS` that succeeds leaves a disk on which
DOS finds `AUTORUN.SYS` and loads exactly the segments, and then goes to the run address.  Missing from the full statement: files of
DOS that have been found before are found afterwards (`C121_refuted_menu`). -/
theorem C121_runs_partial {h b0 fs N b} (D : SystemDisk h b0 fs) (hmax : h.maxSectors < 1280) (hN : N.length ≤ 64) (hM : ∀ f ∈ fs, f.filename ∈ N) {keep : Bytes}
    (hd : DevelopedA N keep b0 b) (ha : autorunName ∈ N) {o : Opts} {segs : List Seg} {run : Option Nat} {x : Bytes} (hdry : o.dryRun = false)
    (hforce : o.force = true) (hw : ∀ s ∈ segs, s.Wf) (hx : getXex segs run = .ok x)
    (hok : (runAssemble atariDriver o .xex autorunName segs run b).1 = .ok ())
    (hno : ∀ s ∈ segs, ∀ a, s.covers a → ¬ (0x2e0 ≤ a ∧ a ≤ 0x2e3)) (init : Nat → (Nat → UInt8) → (Nat → UInt8) → Prop) {back : Nat}
    (hb : back < 65536) (mem : Nat → UInt8) :
    ∃ h' mem', openHeader (runAssemble atariDriver o .xex autorunName segs run b).2 = .ok h' ∧
      BLoads h' (runAssemble atariDriver o .xex autorunName segs run b).2 autorunKey init back mem mem' (runValue segs run) ∧
      (∀ s ∈ segs, ∀ a, s.covers a → mem' a = memAt segs a) ∧
      ∀ a, ¬ (0x2e0 ≤ a ∧ a ≤ 0x2e3) → (∀ s ∈ segs, ¬ s.covers a) → mem' a = mem a := by
  obtain ⟨m0, ds0, h1, h2, h3, h4, h5⟩ := (C119_holds D).1
  obtain ⟨m, M, rfl, r, _, hk⟩ := developedA_reach ⟨ds0, h2, h4, h5⟩ h3 hmax hN (sysFiles_keys hM) hd
  exact C117_assemble_partial r.holds hdry (.inr hforce) autorun_canon (length_del_lt r hN hk ha) (by decide) hw hx hok (.inr (by decide))
    hno init hb mem

theorem nodup_subset_length_nat : ∀ (l N : List Nat), l.Nodup → (∀ x ∈ l, x ∈ N) → l.length ≤ N.length := by
  intro l
  induction l with
  | nil => intro N _ _; exact Nat.zero_le _
  | cons a l ih =>
    intro N hnd hs
    have ha := hs a List.mem_cons_self
    have := ih (N.erase a) (List.nodup_cons.mp hnd).2 (fun x hx => by
      have hxa : x ≠ a := fun he => (List.nodup_cons.mp hnd).1 (he ▸ hx)
      exact (List.mem_erase_of_ne hxa).mpr (hs x (List.mem_cons_of_mem _ hx)))
    have hle := List.length_erase_of_mem ha
    have hpos := List.length_pos_of_mem ha
    simp only [List.length_cons]; omega

/-- deleting a file does not take free sectors -/
theorem freePool_delete {m m' : AImg} {ds} {name : Bytes} (hm : Mounted m ds) (hl : name ∈ m.names)
    (hw : AImg.deleteFile name m = (.ok (), m')) : (freePool m.hdr m.bytes).length ≤ (freePool m'.hdr m'.bytes).length := by
  obtain ⟨m1, _, _, _, _, _, k1, _, _, _, _, _, k2, _⟩ := mounted_delete hm hl
  rw [hw] at k1
  injection k1 with _ k1
  subst k1
  refine nodup_subset_length_nat _ _ (freeList_nodup _) ?_
  intro s hs
  exact (mem_freeList _ s).mpr ((k2 s).mpr (.inl ((mem_freeList _ s).mp hs)))

/-- **C121, room.** `assemble -f` succeeds if the program fits into the free sectors, whatever has been assembled before, and then as
many sectors are left as were free and have not been needed, or more. -/
theorem C121_succeeds {h b0 fs N b} (D : SystemDisk h b0 fs) (hmax : h.maxSectors < 1280) (hN : N.length ≤ 64) (hM : ∀ f ∈ fs, f.filename ∈ N) {keep : Bytes}
    (hd : DevelopedA N keep b0 b) {o : Opts} {output : Bytes} {segs : List Seg} {run : Option Nat} {x : Bytes} (ha : output ∈ N)
    (hc : Canon83 output) (hdry : o.dryRun = false) (hforce : o.force = true) (hce : createExecutable .xex output segs run = .ok x)
    (hroom : sectorsNeeded h x.length ≤ (freePool h b).length) :
    (runAssemble atariDriver o .xex output segs run b).1 = .ok () ∧
      (freePool h b).length ≤ (freePool h (runAssemble atariDriver o .xex output segs run b).2).length + sectorsNeeded h x.length := by
  obtain ⟨m0, ds0, h1, h2, h3, h4, h5⟩ := (C119_holds D).1
  obtain ⟨m, M, rfl, r, _, hk⟩ := developedA_reach ⟨ds0, h2, h4, h5⟩ h3 hmax hN (sysFiles_keys hM) hd
  have hne := createExecutable_ne_nil hce
  have hfull := length_del_lt r hN hk ha
  obtain ⟨ds, dm, dh, _⟩ := id r
  unfold runAssemble
  rw [show atariDriver.load m.bytes = .ok m from dm.1]
  simp only [hce]
  have fin : ∀ m1, Rep h m1 (M.del output) → (freePool h m.bytes).length ≤ (freePool h m1.bytes).length →
      ∃ m', finishSave atariDriver o output x m1 = (.ok true, m') ∧
        (freePool h m.bytes).length ≤ (freePool h m'.bytes).length + sectorsNeeded h x.length := by
    intro m1 r1 hp
    have hnk : output ∉ (M.del output).keys := by
      unfold FMap.keys FMap.del
      simp
    obtain ⟨_, d1, e, _⟩ := id r1
    rcases r1.write hnk hc hne hfull with ⟨m', k1, k2, _⟩ | ⟨_, k1⟩
    · refine ⟨m', ?_, ?_⟩
      · unfold finishSave
        simp only [hdry, Bool.false_eq_true, if_false]
        rw [show atariDriver.write output x m1 = (.ok (), m') from k1]
      · obtain ⟨_, _, e', _⟩ := id k2
        obtain ⟨_, _, p, _⟩ := C06_allocation d1 hc (fun hx => hnk (r1.names.subset hx)) (by rw [r1.length]; exact hfull) hne k1
        have := congrArg List.length p
        rw [List.length_drop, e, e'] at this
        omega
    · rw [e] at k1; omega
  have : ∃ m', saveFile atariDriver o output x m = (.ok true, m') ∧
      (freePool h m.bytes).length ≤ (freePool h m'.bytes).length + sectorsNeeded h x.length := by
    unfold saveFile
    by_cases hin : output ∈ M.keys
    · obtain ⟨m1, k1, k2⟩ := r.delete hin
      have hp := freePool_delete dm (r.names.symm.subset hin) k1
      obtain ⟨_, _, e, _⟩ := id k2
      rw [e, dh] at hp
      obtain ⟨m', hm', hp'⟩ := fin m1 k2 hp
      refine ⟨m', ?_, hp'⟩
      rw [r.find_mem hin]
      simp only [hforce, if_true]
      rw [show atariDriver.delete output m = (.ok (), m1) from k1]
      exact hm'
    · obtain ⟨m', hm', hp'⟩ := fin m (by rw [FMap.del_not hin]; exact r) (Nat.le_refl _)
      refine ⟨m', ?_, hp'⟩
      rw [r.find_not hin]
      exact hm'
  obtain ⟨m', hm', hp'⟩ := this
  rw [hm']
  exact ⟨rfl, hp'⟩

/-- a command with `--force` and without `--dry-run` that succeeds has saved the program -/
theorem assemble_saved {h m M} {o : Opts} {output : Bytes} {segs : List Seg} {run : Option Nat} (r : Rep h m M) (hdry : o.dryRun = false)
    (hforce : o.force = true) (hok : (runAssemble atariDriver o .xex output segs run m.bytes).1 = .ok ()) :
    ∃ x m', createExecutable .xex output segs run = .ok x ∧ saveFile atariDriver o output x m = (.ok true, m') ∧
      (runAssemble atariDriver o .xex output segs run m.bytes).2 = m'.bytes := by
  obtain ⟨ds, h1, _⟩ := r
  unfold runAssemble at hok ⊢
  rw [show atariDriver.load m.bytes = .ok m from h1.1] at hok ⊢
  simp only at hok ⊢
  cases hce : createExecutable .xex output segs run with
  | error e => rw [hce] at hok; cases hok
  | ok x =>
    rw [hce] at hok
    simp only at hok ⊢
    have hnf : ∀ m', saveFile atariDriver o output x m ≠ (.ok false, m') := by
      intro m' hs
      have fin : ∀ m1, finishSave atariDriver o output x m1 ≠ (.ok false, m') := by
        intro m1 hf
        unfold finishSave at hf
        rw [if_neg (by simp [hdry])] at hf
        split at hf <;> cases hf
      unfold saveFile at hs
      split at hs
      · exact fin _ hs
      · cases hs
      · rw [if_pos hforce] at hs
        split at hs
        · exact fin _ hs
        · cases hs
        · exact fin _ hs
    cases hs : saveFile atariDriver o output x m with
    | mk q m' =>
      rw [hs] at hok
      cases q with
      | error e => cases hok
      | ok c =>
        cases c with
        | false => exact absurd hs (hnf m')
        | true => exact ⟨x, m', rfl, hs, rfl⟩

/-- **C121, refuted.** `DUP.SYS`, the menu of DOS, and every other file of DOS with a short name is still listed with its contents by
atrcopy after a command that has saved a program, but DOS does not find it any more. -/
theorem C121_refuted_menu {h b0 fs N b} (D : SystemDisk h b0 fs) (hmax : h.maxSectors < 1280) (hN : N.length ≤ 64) (hM : ∀ f ∈ fs, f.filename ∈ N) {i : Nat}
    {x : Nat × SysFile} (hx : (sysStarts 4 fs)[i]? = some x) (hd : DevelopedA N x.2.filename b0 b) {o : Opts} {output : Bytes}
    {segs : List Seg} {run : Option Nat} (ho : output ∈ N) (hc : Canon83 output) (hne : output ≠ x.2.filename)
    (hdry : o.dryRun = false) (hforce : o.force = true) (hok : (runAssemble atariDriver o .xex output segs run b).1 = .ok ()) (hs : x.2.base.length < 8 ∨ x.2.ext.length < 3) :
    ∃ m', AImg.open (runAssemble atariDriver o .xex output segs run b).2 = .ok m' ∧ x.2.filename ∈ m'.names ∧ ¬ m'.DosHas x.2.base x.2.ext := by
  obtain ⟨m0, ds0, h1, h2, h3, h4, h5⟩ := (C119_holds D).1
  obtain ⟨m, M, rfl, r, hr, hk⟩ := developedA_reach ⟨ds0, h2, h4, h5⟩ h3 hmax hN (sysFiles_keys hM) hd
  obtain ⟨y, m', e1, e2, e3⟩ := assemble_saved r hdry hforce hok
  have hy := createExecutable_ne_nil e1
  obtain ⟨k1, _, m1, ds1, k3, _, k5, k6, k7, k8⟩ := saved_reach r hr hc hy (length_del_lt r hN hk ho) (fun _ => hne) e2
  have hd0 := D.listed h1 hx
  obtain ⟨dm0, _⟩ := D.opened h1
  have hd1 := (C112_kept dm0 hd0 hr).1
  have hd2 := k5 _ hd1 (Ne.symm hne)
  obtain ⟨q1, q2⟩ := C113_refuted_add k3 hc.2 (by rw [hc.1]; exact k6) k7 hy k8 hd2 hs
  obtain ⟨ds', g, _⟩ := k1
  rw [e3]
  exact ⟨m', g.1, List.mem_map.mpr ⟨_, q1, rfl⟩, q2⟩

/-- **C121, refuted.** When another program is saved after the one in `AUTORUN.SYS`, DOS does not find `AUTORUN.SYS` any more, although
atrcopy lists it: the program for the start has to be the last one. -/
theorem C121_refuted_order {h b0 fs N b} (D : SystemDisk h b0 fs) (hmax : h.maxSectors < 1280) (hN : N.length ≤ 64) (hM : ∀ f ∈ fs, f.filename ∈ N) {keep : Bytes}
    (hd : DevelopedA N keep b0 b) (ha : autorunName ∈ N) {o o' : Opts} {output : Bytes} {segs segs' : List Seg}
    {run run' : Option Nat} (ho : output ∈ N) (hc : Canon83 output) (hne : output ≠ autorunName) (hdry : o.dryRun = false)
    (hforce : o.force = true) (hdry' : o'.dryRun = false) (hforce' : o'.force = true)
    (h1 : (runAssemble atariDriver o .xex autorunName segs run b).1 = .ok ())
    (h2 : (runAssemble atariDriver o' .xex output segs' run' (runAssemble atariDriver o .xex autorunName segs run b).2).1 = .ok ()) :
    ∃ m', AImg.open (runAssemble atariDriver o' .xex output segs' run' (runAssemble atariDriver o .xex autorunName segs run b).2).2 = .ok m' ∧
      autorunName ∈ m'.names ∧ ¬ m'.DosHas [0x41, 0x55, 0x54, 0x4f, 0x52, 0x55, 0x4e] [0x53, 0x59, 0x53] := by
  obtain ⟨m0, ds0, g1, g2, g3, g4, g5⟩ := (C119_holds D).1
  obtain ⟨m, M, rfl, r, _, hk⟩ := developedA_reach ⟨ds0, g2, g4, g5⟩ g3 hmax hN (sysFiles_keys hM) hd
  obtain ⟨y, m', e1, e2, e3⟩ := assemble_saved r hdry hforce h1
  have hy := createExecutable_ne_nil e1
  obtain ⟨k1, _, m1, ds1, k3, _, _, k6, k7, k8⟩ := saved_reach r (.start (keep := [])) autorun_canon hy (length_del_lt r hN hk ha) (fun _ => by decide) e2
  obtain ⟨_, _, _, _, _, _, d, d1, d2, d3⟩ := added_entries k3 autorun_canon.2 (by rw [autorun_canon.1]; exact k6) k7 hy k8
  have hb : d.basename = [0x41, 0x55, 0x54, 0x4f, 0x52, 0x55, 0x4e] := d2.trans (by decide)
  have hex : d.ext = [0x53, 0x59, 0x53] := d3.trans (by decide)
  have hfn : d.filename = autorunName := by unfold ADirent.filename; rw [hb, hex]; rfl
  have hkeys := keys_put (d := y) hk ha
  rw [e3] at h2 ⊢
  obtain ⟨z, m'', f1, f2, f3⟩ := assemble_saved k1 hdry' hforce' h2
  have hz := createExecutable_ne_nil f1
  obtain ⟨l1, _, m2, ds2, l3, _, l5, l6, l7, l8⟩ := saved_reach k1 (.start (keep := autorunName)) hc hz (length_del_lt k1 hN hkeys ho) (fun _ => hne) f2
  obtain ⟨q1, q2⟩ := C113_refuted_add l3 hc.2 (by rw [hc.1]; exact l6) l7 hz l8 (l5 d d1 (by rw [hfn]; exact Ne.symm hne))
    (.inl (by rw [hb]; decide))
  rw [hb, hex] at q2
  obtain ⟨ds', g, _⟩ := l1
  rw [f3]
  exact ⟨m'', g.1, List.mem_map.mpr ⟨d, q1, hfn⟩, q2⟩

/-- the three files of DOS 2.0s and one more name -/
def autorunNames : List Bytes := dos20s.map SysFile.filename ++ [[0x54, 0x2e, 0x58, 0x45, 0x58]]

/-- DOS 2.0s: a program is assembled to `AUTORUN.SYS`, which replaces the file of the template.  It is loaded at 0x2000 and started at
0x2001, and `DOS.SYS` is where it was. -/
example (init : Nat → (Nat → UInt8) → (Nat → UInt8) → Prop) (mem : Nat → UInt8) : ∃ b0 h mem',
    SystemDisk xfdHeader b0 dos20s ∧
      BLoads h (runAssemble atariDriver { force := true } .xex autorunName [⟨0x2000, [1, 2]⟩] (some 0x2001) b0).2 autorunKey init 0x1234 mem mem' 0x2001 ∧
      (mem' 0x2000, mem' 0x2001) = (1, 2) ∧ mem' 0x2002 = mem 0x2002 ∧
      ∃ m, AImg.open (runAssemble atariDriver { force := true } .xex autorunName [⟨0x2000, [1, 2]⟩] (some 0x2001) b0).2 = .ok m ∧
        ∃ d ∈ m.files, d.startingSector = 4 ∧ d.numSectors = 39 := by
  obtain ⟨b0, D⟩ := dos20s_disk
  have hN : autorunNames.length ≤ 64 := by decide
  have hM : ∀ f ∈ dos20s, f.filename ∈ autorunNames := by decide
  have ha : autorunName ∈ autorunNames := by decide
  have hx0 : (sysStarts 4 dos20s)[0]? = some (4, ⟨0x42, [0x44, 0x4f, 0x53], [0x53, 0x59, 0x53], 39, 125⟩) := rfl
  have hd : DevelopedA autorunNames [0x44, 0x4f, 0x53, 0x2e, 0x53, 0x59, 0x53] b0 b0 := .start
  have hpool : (freePool xfdHeader b0).length = 625 := (C119_holds D).2
  have hx : getXex [⟨0x2000, [1, 2]⟩] (some 0x2001) = .ok [255, 255, 224, 2, 225, 2, 1, 0x20, 0, 0x20, 1, 0x20, 1, 2] := by rfl
  have hce : createExecutable .xex autorunName [⟨0x2000, [1, 2]⟩] (some 0x2001) = .ok [255, 255, 224, 2, 225, 2, 1, 0x20, 0, 0x20, 1, 0x20, 1, 2] := by rfl
  have hok := (C121_succeeds D (by decide) hN hM hd ha autorun_canon (o := { force := true }) rfl rfl hce (by rw [hpool]; decide)).1
  obtain ⟨h', mem', _, q1, q2, q3⟩ := C121_runs_partial D (by decide) hN hM hd ha (o := { force := true }) rfl rfl (by simp [Seg.Wf]) hx hok (by
      intro s hs a ha
      simp only [List.mem_cons, List.not_mem_nil, or_false] at hs
      subst hs
      unfold Seg.covers at ha; simp only at ha; omega) init (back := 0x1234) (by decide) mem
  have hd2 := DevelopedA.assemble { force := true } autorunName [⟨0x2000, [1, 2]⟩] (some 0x2001) hd ha autorun_canon (fun _ => by decide)
  obtain ⟨_, m, p1, d, p2, _, p3, p4, _⟩ := C121_kept D (by decide) hN hM hx0 hd2
  refine ⟨b0, h', mem', D, q1, ?_, q3 _ (by decide) ?_, m, p1, d, p2, p3, p4⟩
  · rw [q2 ⟨0x2000, [1, 2]⟩ (by simp) 0x2000 (by unfold Seg.covers; decide), q2 ⟨0x2000, [1, 2]⟩ (by simp) 0x2001 (by unfold Seg.covers; decide)]
    rfl
  · intro s hs
    simp only [List.mem_cons, List.not_mem_nil, or_false] at hs
    subst hs
    unfold Seg.covers; decide

/-- DOS 2.0s: `AUTORUN.SYS` is removed, and the unused sectors are overwritten; `DOS.SYS` is where it was -/
example : ∃ b0 m, SystemDisk xfdHeader b0 dos20s ∧
    AImg.open (Cmd.run atariDriver {} .shred (Cmd.run atariDriver {} (.remove [autorunName]) b0).2).2 = .ok m ∧
    ∃ d ∈ m.files, d.startingSector = 4 ∧ d.numSectors = 39 := by
  obtain ⟨b0, D⟩ := dos20s_disk
  have hx0 : (sysStarts 4 dos20s)[0]? = some (4, ⟨0x42, [0x44, 0x4f, 0x53], [0x53, 0x59, 0x53], 39, 125⟩) := rfl
  have hd : DevelopedA autorunNames [0x44, 0x4f, 0x53, 0x2e, 0x53, 0x59, 0x53] b0
      (Cmd.run atariDriver {} .shred (Cmd.run atariDriver {} (.remove [autorunName]) b0).2).2 :=
    .command _ _ (.command _ _ .start trivial (show _ ∉ [autorunName] by decide)) trivial trivial
  obtain ⟨_, m, p1, d, p2, _, p3, p4, _⟩ := C121_kept D (by decide) (by decide) (by decide) hx0 hd
  exact ⟨b0, m, D, p1, d, p2, p3, p4⟩

/-- DOS 2.0s: a program is assembled to `AUTORUN.SYS` and then another one to `T.XEX`, both without an error; DOS finds neither its menu
nor `AUTORUN.SYS` -/
example : ∃ b0 b1 b2 m, SystemDisk xfdHeader b0 dos20s ∧
    runAssemble atariDriver { force := true } .xex autorunName [⟨0x2000, [1, 2]⟩] none b0 = (.ok (), b1) ∧
    runAssemble atariDriver { force := true } .xex [0x54, 0x2e, 0x58, 0x45, 0x58] [⟨0x2000, [1, 2]⟩] none b1 = (.ok (), b2) ∧
    AImg.open b2 = .ok m ∧ ¬ m.DosHas [0x44, 0x55, 0x50] [0x53, 0x59, 0x53] ∧
    ¬ m.DosHas [0x41, 0x55, 0x54, 0x4f, 0x52, 0x55, 0x4e] [0x53, 0x59, 0x53] := by
  obtain ⟨b0, D⟩ := dos20s_disk
  have hN : autorunNames.length ≤ 64 := by decide
  have hM : ∀ f ∈ dos20s, f.filename ∈ autorunNames := by decide
  have ha : autorunName ∈ autorunNames := by decide
  have ht : ([0x54, 0x2e, 0x58, 0x45, 0x58] : Bytes) ∈ autorunNames := by decide
  have hx1 : (sysStarts 4 dos20s)[1]? = some (43, ⟨0x42, [0x44, 0x55, 0x50], [0x53, 0x59, 0x53], 42, 1⟩) := rfl
  have hc : Canon83 [0x54, 0x2e, 0x58, 0x45, 0x58] := by unfold Canon83; decide
  have hpool : (freePool xfdHeader b0).length = 625 := (C119_holds D).2
  have hx : createExecutable .xex autorunName [⟨0x2000, [1, 2]⟩] none = .ok [255, 255, 224, 2, 225, 2, 0, 0x20, 0, 0x20, 1, 0x20, 1, 2] := by rfl
  have hx' : createExecutable .xex [0x54, 0x2e, 0x58, 0x45, 0x58] [⟨0x2000, [1, 2]⟩] none =
    .ok [255, 255, 224, 2, 225, 2, 0, 0x20, 0, 0x20, 1, 0x20, 1, 2] := by rfl
  have hd : DevelopedA autorunNames [0x44, 0x55, 0x50, 0x2e, 0x53, 0x59, 0x53] b0 b0 := .start
  obtain ⟨s1, p1⟩ := C121_succeeds D (by decide) hN hM hd ha autorun_canon (o := { force := true }) rfl rfl hx (by rw [hpool]; decide)
  have hd1 := DevelopedA.assemble { force := true } autorunName [⟨0x2000, [1, 2]⟩] none hd ha autorun_canon (fun _ => by decide)
  have hn : sectorsNeeded xfdHeader ([255, 255, 224, 2, 225, 2, 0, 0x20, 0, 0x20, 1, 0x20, 1, 2] : Bytes).length = 1 := by decide
  rw [hn, hpool] at p1
  obtain ⟨s2, _⟩ := C121_succeeds D (by decide) hN hM hd1 ht hc (o := { force := true }) rfl rfl hx' (by rw [hn]; omega)
  obtain ⟨m, k1, _, k2⟩ := C121_refuted_menu D (by decide) hN hM hx1 hd1 ht hc (by decide) (o := { force := true }) rfl rfl s2 (.inl (by decide))
  obtain ⟨m2, k3, _, k4⟩ := C121_refuted_order D (by decide) hN hM hd ha ht hc (by decide) (o := { force := true }) (o' := { force := true }) rfl rfl rfl rfl s1 s2
  rw [k1] at k3
  injection k3 with k3
  subst k3
  refine ⟨b0, _, _, m, D, Prod.ext s1 rfl, Prod.ext s2 rfl, k1, k2, k4⟩

end Atr
