import Verif.Spec.AtariNames
/-!
# Disks with DOS on them

The templates `dos2sd+2.0s.atr` and `dos2ed+2.5.atr` were written by DOS: their files follow each other from sector 4 on, each in
consecutive sectors, all of them full but the last one, and the names are padded with blanks.
-/
namespace Atr

/-- a file of such a disk: flag of its entry, name, extension, number of sectors, number of data bytes in the last one -/
structure SysFile where
  flag : UInt8
  base : Bytes
  ext : Bytes
  count : Nat
  last : Nat

/-- the name that is listed -/
def SysFile.filename (f : SysFile) : Bytes := f.base ++ (if f.ext = [] then [] else 0x2e :: f.ext)

/-- a file that DOS 2 wrote (flag 0x42), perhaps a locked one (0x62) -/
structure SysFile.Plain (f : SysFile) : Prop where
  flag : f.flag = 0x42 ∨ f.flag = 0x62
  base : f.base.length ≤ 8 ∧ 0 ∉ f.base ∧ rstripWs f.base = f.base
  ext : f.ext.length ≤ 3 ∧ 0 ∉ f.ext ∧ rstripWs f.ext = f.ext
  count : 1 ≤ f.count
  last : 1 ≤ f.last ∧ f.last ≤ 125

/-- the files with their first sectors, from sector `a` on -/
def sysStarts : Nat → List SysFile → List (Nat × SysFile)
  | _, [] => []
  | a, f :: fs => (a, f) :: sysStarts (a + f.count) fs

/-- first sector behind the files -/
def sysEnd : Nat → List SysFile → Nat
  | a, [] => a
  | a, f :: fs => sysEnd (a + f.count) fs

/-- number of data bytes in sector `k` of a file -/
def SysFile.used (f : SysFile) (k : Nat) : Nat := if k + 1 = f.count then f.last else 125

/-- the sector that follows sector `k` of a file from sector `st` on -/
def SysFile.next (f : SysFile) (st k : Nat) : Nat := if k + 1 = f.count then 0 else st + k + 1

/-- contents of a file -/
def sysData (h : AHeader) (b : Bytes) (x : Nat × SysFile) : Bytes :=
  (List.range x.2.count).flatMap fun k => (sec h b (x.1 + k)).take (x.2.used k)

/-- names and contents -/
def sysFiles (h : AHeader) (b : Bytes) (fs : List SysFile) : List (Bytes × Bytes) :=
  (sysStarts 4 fs).map fun x => (x.2.filename, sysData h b x)

/-- a disk on which DOS has written the files `fs` -/
structure SystemDisk (h : AHeader) (b : Bytes) (fs : List SysFile) : Prop where
  opens : openHeader b = .ok h
  sectorSize : h.sectorSize = 128
  size : 719 ≤ h.maxSectors
  ed : h.imageSize = 133120 → 1024 ≤ h.maxSectors
  vtocCode : (sec h b 360).head? = some 2
  /-- the sectors behind the files are free, up to 719 and except for those of the VTOC and the directory -/
  bitmap : ∀ s, IsFree h b s ↔ sysEnd 4 fs ≤ s ∧ s < 720 ∧ ¬ (360 ≤ s ∧ s ≤ 368)
  room : sysEnd 4 fs ≤ 360
  slots : fs.length ≤ 64
  plain : ∀ f ∈ fs, f.Plain
  names : (fs.map SysFile.filename).Nodup
  /-- the entries: flag, number of sectors, first sector, name padded with blanks -/
  entries : ∀ (i : Nat) (x : Nat × SysFile), (sysStarts 4 fs)[i]? = some x →
    (rawEntries h b)[i]? = some (x.2.flag :: (enc16 x.2.count ++ enc16 x.1 ++ dosName x.2.base x.2.ext))
  unused : ∀ (i : Nat) (e : Bytes), fs.length ≤ i → (rawEntries h b)[i]? = some e → e.head? = some 0
  /-- the last three bytes of every sector: file number and next sector, number of data bytes -/
  links : ∀ (i : Nat) (x : Nat × SysFile), (sysStarts 4 fs)[i]? = some x → ∀ k < x.2.count,
    slice (sec h b (x.1 + k)) 125 128 =
      [UInt8.ofNat (4 * i + x.2.next x.1 k / 256), UInt8.ofNat (x.2.next x.1 k), UInt8.ofNat (x.2.used k)]

end Atr
