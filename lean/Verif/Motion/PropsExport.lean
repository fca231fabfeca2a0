import Verif.Motion.Export
import Verif.Motion.Props
import Verif.Datasets.PropsChoreo1

/-!
# Property C184: exports of motion databases in directories
-/

namespace Verif.Motion

open Verif.Corpus (pathJoin dirname)
open Verif.Logger (Key decStr decStr_inj decStr_digits)
open Verif.Datasets (Plain pathJoin_plain dirname_join dirname_name andThen plain_append)
open Verif.Objects (mapM_py_ok)

variable {D : Type}

/-! ### Specification -/

/-- The path of a file of a directory; `""` is the current directory. -/
def under (dest n : Key) : Key := if dest = [] then n else dest ++ '/' :: n

/-- The current directory, or a directory written without a trailing slash. -/
def Dest (d : Key) : Prop := d = [] ∨ Plain d

/-- Arrays which the text export accepts. -/
def Good (ndim : D → ℕ) (force : Bool) (d : D) : Prop := ndim d = 2 ∨ force = true ∧ 2 < ndim d

/-! ### Paths -/

theorem pathJoin_under {dest n : Key} (hd : Dest dest) (hn : n.head? ≠ some '/') : pathJoin dest n = under dest n := by
  unfold under
  rcases hd with rfl | hd
  · unfold pathJoin
    rw [if_neg hn, if_pos (Or.inl rfl), if_pos rfl]
    rfl
  · rw [pathJoin_plain hd hn, if_neg hd.1]

theorem dirname_under {dest n : Key} (hd : Dest dest) (hn : '/' ∉ n) : dirname (under dest n) = dest := by
  unfold under
  rcases hd with rfl | hd
  · rw [if_pos rfl, dirname_name hn]
  · rw [if_neg hd.1, dirname_join hd hn]

theorem under_inj {dest a b : Key} (h : under dest a = under dest b) : a = b := by
  unfold under at h
  split_ifs at h
  · exact h
  · exact List.tail_eq_of_cons_eq (List.append_cancel_left h)

theorem head_ne {n : Key} (hn : '/' ∉ n) : n.head? ≠ some '/' := fun h => hn (List.mem_of_head? h)

theorem dest_under {dest n : Key} (hn : '/' ∉ n) (hne : n ≠ []) : Dest (under dest n) := by
  have hl : n.getLast? ≠ some '/' := fun h => hn (List.mem_of_getLast? h)
  unfold under
  split_ifs
  · exact Or.inr ⟨hne, hl⟩
  · exact Or.inr (plain_append hne hl)

theorem slash_append {n m : Key} (hn : '/' ∉ n) (hm : '/' ∉ m) : '/' ∉ n ++ m := by
  rw [List.mem_append]
  tauto

theorem save_under {C : Type} {fs : Datasets.FS C} {dest n : Key} {c : C} (hd : Dest dest) (hn : '/' ∉ n)
    (hdir : fs.isDir dest = true) : fs.save (pathJoin dest n) c = (fs.write (under dest n) c, .ok ()) := by
  unfold Datasets.FS.save
  rw [pathJoin_under hd (head_ne hn), dirname_under hd hn, if_pos hdir]

theorem save_no_dir {C : Type} {fs : Datasets.FS C} {dest n : Key} {c : C} (hd : Dest dest) (hn : '/' ∉ n)
    (hdir : fs.isDir dest = false) : fs.save (pathJoin dest n) c = (fs, .error .ioError) := by
  unfold Datasets.FS.save
  rw [pathJoin_under hd (head_ne hn), dirname_under hd hn, if_neg (by rw [hdir]; decide)]

/-! ### Exports -/

/-- The records which are read back. -/
theorem records_back (db : DB D) : db.metaRecords.mapM (fetchRecord db.npzData) = (.ok db.records : Py (List (D × List Label))) := by
  rw [mapM_py_ok]
  unfold DB.metaRecords DB.labels
  rw [List.forall₂_iff_get]
  refine ⟨by simp, ?_⟩
  intro i h1 h2
  simp only [List.get_eq_getElem, List.getElem_map, List.getElem_zipIdx]
  have hi : db.records[i]? = some db.records[i] := List.getElem?_eq_getElem h2
  unfold fetchRecord
  rw [Nat.zero_add, npzData_get db i _ hi]

/-- **C184.** The `npz` export to an existing directory, under a name without slash, writes two files there and nothing
else.  The database is loaded back from the first one, with the descriptions which JSON gives back. -/
theorem C184_npz (ndim : D → ℕ) (flat : D → D) (db : DB D) (dest : Key) (hd : Dest dest) (filename : Option Key)
    (force : Bool) (hf : '/' ∉ filename.getD db.name) (fs : Disk D) (hdir : fs.isDir dest = true) :
    ∃ fs', db.exportTo ndim flat dest filename "npz".toList force fs = (fs', .ok ()) ∧ fs'.isDir = fs.isDir ∧
      (∀ q, q ≠ under dest (filename.getD db.name ++ ".json".toList) → q ≠ under dest (filename.getD db.name ++ ".npz".toList) →
        fs'.file q = fs.file q) ∧
      loadFrom fs' (under dest (filename.getD db.name ++ ".json".toList)) =
        .ok ⟨db.name, db.markerNames, db.records, jsonDesc db.desc⟩ := by
  unfold DB.exportTo
  rw [if_pos rfl]
  generalize filename.getD db.name = f at hf ⊢
  have hj : '/' ∉ f ++ ".json".toList := slash_append hf (by decide)
  have hz : '/' ∉ f ++ ".npz".toList := slash_append hf (by decide)
  have hne : under dest (f ++ ".json".toList) ≠ under dest (f ++ ".npz".toList) := fun h => json_ne_npz f (under_inj h)
  refine ⟨(fs.write (under dest (f ++ ".json".toList)) (.json (db.jsonMeta (.dataFile (f ++ ".npz".toList))))).write
    (under dest (f ++ ".npz".toList)) (.npz db.npzData), ?_, rfl, ?_, ?_⟩
  · rw [save_under hd hj hdir]
    show Datasets.FS.save _ _ _ = _
    rw [save_under hd hz (by exact hdir)]
  · intro q h1 h2
    show (if q = _ then _ else if q = _ then _ else _) = _
    rw [if_neg h2, if_neg h1]
  · unfold loadFrom
    have h1 : ((fs.write (under dest (f ++ ".json".toList)) (.json (db.jsonMeta (.dataFile (f ++ ".npz".toList))))).write
        (under dest (f ++ ".npz".toList)) (.npz db.npzData)).file (under dest (f ++ ".json".toList)) =
        some (.json (db.jsonMeta (.dataFile (f ++ ".npz".toList)))) := by
      show (if _ then _ else if _ then _ else _) = _
      rw [if_neg hne, if_pos rfl]
    rw [h1]
    simp only [DB.jsonMeta]
    rw [dirname_under hd hj, pathJoin_under hd (head_ne hz)]
    have h2 : ((fs.write (under dest (f ++ ".json".toList)) (.json (db.jsonMeta (.dataFile (f ++ ".npz".toList))))).write
        (under dest (f ++ ".npz".toList)) (.npz db.npzData)).file (under dest (f ++ ".npz".toList)) = some (.npz db.npzData) := by
      show (if _ then _ else _) = _
      rw [if_pos rfl]
    rw [show (DB.jsonMeta db (.dataFile (f ++ ".npz".toList))) = (⟨db.name, db.markerNames, jsonDesc db.desc,
      .dataFile (f ++ ".npz".toList), db.metaRecords⟩ : JsonMeta) from rfl] at h2
    rw [h2]
    simp only []
    rw [records_back]
    rfl

/-- **C184.** With an absolute name the destination is not used, and loading works too. -/
theorem C184_npz_absolute (ndim : D → ℕ) (flat : D → D) (db : DB D) (dest a b : Key) (ha : Plain a) (ha' : a.head? = some '/')
    (hb : '/' ∉ b) (force : Bool) (fs : Disk D) (hdir : fs.isDir a = true) :
    ∃ fs', db.exportTo ndim flat dest (some (a ++ '/' :: b)) "npz".toList force fs = (fs', .ok ()) ∧
      loadFrom fs' (a ++ '/' :: b ++ ".json".toList) = .ok ⟨db.name, db.markerNames, db.records, jsonDesc db.desc⟩ := by
  obtain ⟨fs', h1, -, -, h2⟩ := C184_npz ndim flat db a (Or.inr ha) (some b) force hb fs hdir
  have hu : ∀ n, under a n = a ++ '/' :: n := fun n => if_neg ha.1
  have hh : ∀ n : Key, (a ++ n).head? = some '/' := by
    intro n
    rcases a with _ | ⟨c, a⟩
    · cases ha'
    · exact ha'
  have hj : ∀ (d n : Key), pathJoin d (a ++ n) = a ++ n := fun d n => if_pos (hh n)
  have hjb : '/' ∉ b ++ ".json".toList := slash_append hb (by decide)
  have hzb : '/' ∉ b ++ ".npz".toList := slash_append hb (by decide)
  have hne : a ++ '/' :: (b ++ ".json".toList) ≠ a ++ '/' :: (b ++ ".npz".toList) := by
    intro h
    exact json_ne_npz b (List.tail_eq_of_cons_eq (List.append_cancel_left h))
  have hs : ∀ (g : Disk D) (n : Key) (c : Saved D), '/' ∉ n → g.isDir a = true →
      g.save (a ++ '/' :: n) c = (g.write (a ++ '/' :: n) c, .ok ()) := by
    intro g n c hn hg
    unfold Datasets.FS.save
    rw [dirname_join ha hn, if_pos hg]
  refine ⟨(fs.write (a ++ '/' :: (b ++ ".json".toList)) (.json (db.jsonMeta (.dataFile (a ++ '/' :: (b ++ ".npz".toList)))))).write
    (a ++ '/' :: (b ++ ".npz".toList)) (.npz db.npzData), ?_, ?_⟩
  · unfold DB.exportTo
    rw [if_pos rfl]
    simp only [Option.getD_some, List.append_assoc, List.cons_append]
    rw [hj, hj, hs _ _ _ hjb hdir]
    show Datasets.FS.save _ _ _ = _
    rw [hs _ _ _ hzb (by exact hdir)]
  · unfold loadFrom
    simp only [List.append_assoc, List.cons_append]
    have e1 : ((fs.write (a ++ '/' :: (b ++ ".json".toList)) (.json (db.jsonMeta (.dataFile (a ++ '/' :: (b ++ ".npz".toList)))))).write
        (a ++ '/' :: (b ++ ".npz".toList)) (.npz db.npzData)).file (a ++ '/' :: (b ++ ".json".toList)) =
        some (.json (db.jsonMeta (.dataFile (a ++ '/' :: (b ++ ".npz".toList))))) := by
      show (if _ then _ else if _ then _ else _) = _
      rw [if_neg hne, if_pos rfl]
    rw [e1]
    dsimp only
    rw [show (db.jsonMeta (.dataFile (a ++ '/' :: (b ++ ".npz".toList)))).place = .dataFile (a ++ '/' :: (b ++ ".npz".toList)) from rfl]
    dsimp only
    rw [hj]
    have e2 : ∀ c, ((fs.write (a ++ '/' :: (b ++ ".json".toList)) c).write
        (a ++ '/' :: (b ++ ".npz".toList)) (.npz db.npzData)).file (a ++ '/' :: (b ++ ".npz".toList)) = some (.npz db.npzData) := by
      intro c
      show (if _ then _ else _) = _
      rw [if_pos rfl]
    rw [e2]
    dsimp only
    rw [show (db.jsonMeta (.dataFile (a ++ '/' :: (b ++ ".npz".toList)))).records = db.metaRecords from rfl, records_back]
    rfl

/-- **C184.** With a name which has a relative directory, the export succeeds but its data are not found: `load` looks for
them in this directory twice. -/
theorem C184_npz_subdirectory (ndim : D → ℕ) (flat : D → D) (db : DB D) (dest : Key) (hd : Dest dest) (a b : Key)
    (ha : Plain a) (ha' : a.head? ≠ some '/') (hb : '/' ∉ b) (force : Bool) (fs : Disk D)
    (hdir : fs.isDir (under dest a) = true) (hno : fs.file (under dest (a ++ '/' :: a ++ '/' :: b ++ ".npz".toList)) = none) :
    ∃ fs', db.exportTo ndim flat dest (some (a ++ '/' :: b)) "npz".toList force fs = (fs', .ok ()) ∧
      loadFrom fs' (under dest (a ++ '/' :: b ++ ".json".toList)) = .error .ioError := by
  have hp : Plain (under dest a) := by
    unfold under
    split_ifs
    · exact ha
    · exact plain_append ha.1 ha.2
  have hh : ∀ n : Key, (a ++ n).head? ≠ some '/' := by
    intro n
    rcases a with _ | ⟨c, a⟩
    · exact absurd rfl ha.1
    · exact ha'
  have hu : ∀ n, under dest (a ++ n) = under dest a ++ n := by
    intro n
    unfold under
    split_ifs
    · rfl
    · simp only [List.append_assoc, List.cons_append]
  have hj : ∀ n : Key, pathJoin dest (a ++ n) = under dest a ++ n := fun n => by rw [pathJoin_under hd (hh n), hu]
  have hjb : '/' ∉ b ++ ".json".toList := slash_append hb (by decide)
  have hzb : '/' ∉ b ++ ".npz".toList := slash_append hb (by decide)
  have hs : ∀ (g : Disk D) (n : Key) (c : Saved D), '/' ∉ n → g.isDir (under dest a) = true →
      g.save (under dest a ++ '/' :: n) c = (g.write (under dest a ++ '/' :: n) c, .ok ()) := by
    intro g n c hn hg
    unfold Datasets.FS.save
    rw [dirname_join hp hn, if_pos hg]
  have hne : under dest a ++ '/' :: (b ++ ".json".toList) ≠ under dest a ++ '/' :: (b ++ ".npz".toList) := by
    intro h
    exact json_ne_npz b (List.tail_eq_of_cons_eq (List.append_cancel_left h))
  refine ⟨(fs.write (under dest a ++ '/' :: (b ++ ".json".toList))
    (.json (db.jsonMeta (.dataFile (a ++ '/' :: (b ++ ".npz".toList)))))).write
    (under dest a ++ '/' :: (b ++ ".npz".toList)) (.npz db.npzData), ?_, ?_⟩
  · unfold DB.exportTo
    rw [if_pos rfl]
    simp only [Option.getD_some, List.append_assoc, List.cons_append]
    rw [hj, hj, hs _ _ _ hjb hdir]
    show Datasets.FS.save _ _ _ = _
    rw [hs _ _ _ hzb (by exact hdir)]
  · unfold loadFrom
    simp only [List.append_assoc, List.cons_append] at hno ⊢
    rw [hu] at hno ⊢
    have e1 : ((fs.write (under dest a ++ '/' :: (b ++ ".json".toList))
        (.json (db.jsonMeta (.dataFile (a ++ '/' :: (b ++ ".npz".toList)))))).write
        (under dest a ++ '/' :: (b ++ ".npz".toList)) (.npz db.npzData)).file (under dest a ++ '/' :: (b ++ ".json".toList)) =
        some (.json (db.jsonMeta (.dataFile (a ++ '/' :: (b ++ ".npz".toList))))) := by
      show (if _ then _ else if _ then _ else _) = _
      rw [if_neg hne, if_pos rfl]
    rw [e1]
    dsimp only
    rw [show (db.jsonMeta (.dataFile (a ++ '/' :: (b ++ ".npz".toList)))).place = .dataFile (a ++ '/' :: (b ++ ".npz".toList)) from rfl]
    dsimp only
    rw [dirname_join hp hjb, pathJoin_plain hp (hh _)]
    have e2 : ∀ c c', ((fs.write (under dest a ++ '/' :: (b ++ ".json".toList)) c).write
        (under dest a ++ '/' :: (b ++ ".npz".toList)) c').file (under dest a ++ '/' :: (a ++ '/' :: (b ++ ".npz".toList))) = none := by
      intro c c'
      show (if _ then _ else if _ then _ else _) = _
      have hc : ∀ n, '/' ∉ n → under dest a ++ '/' :: (a ++ '/' :: (b ++ ".npz".toList)) ≠ under dest a ++ '/' :: n := by
        intro n hn h
        have := List.tail_eq_of_cons_eq (List.append_cancel_left h)
        exact hn (this ▸ List.mem_append_right _ List.mem_cons_self)
      rw [if_neg (hc _ hzb), if_neg (hc _ hjb)]
      exact hno
    rw [e2]

theorem mkdirIf_ok {fs : Disk D} {dest n : Key} (hd : Dest dest) (hn : '/' ∉ n) (hdir : fs.isDir dest = true)
    (hex : fs.file (under dest n) = none) :
    ∃ fs', mkdirIf fs (under dest n) = (fs', .ok ()) ∧ fs'.file = fs.file ∧
      ∀ q, fs'.isDir q = true ↔ q = under dest n ∨ fs.isDir q = true := by
  unfold mkdirIf mkdir Datasets.FS.exist
  rw [hex, dirname_under hd hn, hdir]
  cases h : fs.isDir (under dest n)
  · exact ⟨_, rfl, rfl, by intro q; simp⟩
  · refine ⟨fs, rfl, rfl, ?_⟩
    intro q
    constructor
    · exact Or.inr
    · rintro (rfl | hq)
      · exact h
      · exact hq

/-- The texts which are written. -/
theorem saveDataTxt_spec (ndim : D → ℕ) (flat : D → D) (force : Bool) {dir : Key} (hd : Dest dir) (ds : List D) :
    ∀ (i : ℕ) (fs : Disk D), fs.isDir dir = true → ∃ fs' r, saveDataTxt ndim flat force dir i ds fs = (fs', r) ∧
      fs'.isDir = fs.isDir ∧ r = (open Classical in if ∀ d ∈ ds, Good ndim force d then .ok () else .error .valueError) ∧
      (∀ j d, ds[j]? = some d → (∀ d' ∈ ds.take (j + 1), Good ndim force d') →
        fs'.file (under dir (decStr (i + j) ++ ".txt".toList)) = some (.txt (if ndim d = 2 then d else flat d))) ∧
      ∀ q, (∀ j, j < ds.length → (∀ d' ∈ ds.take (j + 1), Good ndim force d') →
        q ≠ under dir (decStr (i + j) ++ ".txt".toList)) → fs'.file q = fs.file q := by
  induction ds with
  | nil =>
    intro i fs h
    exact ⟨fs, .ok (), rfl, rfl, by simp, by simp, fun _ _ => rfl⟩
  | cons d ds ih =>
    intro i fs hdir
    have hn : '/' ∉ decStr i ++ ".txt".toList := by
      apply slash_append _ (by decide)
      intro h
      have := decStr_digits i _ h
      revert this
      decide
    by_cases hg : Good ndim force d
    · have hstep : saveDataTxt ndim flat force dir i (d :: ds) fs =
          saveDataTxt ndim flat force dir (i + 1) ds
            (fs.write (under dir (decStr i ++ ".txt".toList)) (.txt (if ndim d = 2 then d else flat d))) := by
        rw [saveDataTxt]
        by_cases h2 : ndim d = 2
        · rw [if_neg (by simpa using h2), if_pos h2, save_under hd hn hdir]
          rfl
        · have h3 : force = true ∧ 2 < ndim d := hg.resolve_left h2
          rw [if_pos h2, if_pos h3, if_neg h2, save_under hd hn hdir]
          rfl
      obtain ⟨fs', r, h1, h2, h3, h4, h5⟩ := ih (i + 1)
        (fs.write (under dir (decStr i ++ ".txt".toList)) (.txt (if ndim d = 2 then d else flat d))) hdir
      refine ⟨fs', r, hstep.trans h1, h2, ?_, ?_, ?_⟩
      · rw [h3]
        classical
        by_cases hall : ∀ d' ∈ ds, Good ndim force d'
        · rw [if_pos hall, if_pos (List.forall_mem_cons.2 ⟨hg, hall⟩)]
        · rw [if_neg hall, if_neg fun h => hall (List.forall_mem_cons.1 h).2]
      · intro j d' hj hall
        rcases j with _ | j
        · obtain rfl : d = d' := by simpa using hj
          rw [h5]
          · show (if _ then _ else _) = _
            rw [Nat.add_zero, if_pos rfl]
          · intro j _ _ h
            have := List.append_cancel_right (under_inj h)
            have := decStr_inj this
            omega
        · have := h4 j d' (by simpa using hj) (fun x hx => hall x (by
            rw [List.take_succ_cons]; exact List.mem_cons_of_mem _ hx))
          rw [show i + 1 + j = i + (j + 1) by omega] at this
          exact this
      · intro q hq
        rw [h5]
        · show (if _ then _ else _) = _
          rw [if_neg]
          have := hq 0 (by simp) (by simpa using hg)
          simpa using this
        · intro j hj hall
          have := hq (j + 1) (by simpa using hj) (by
            intro x hx
            rw [List.take_succ_cons] at hx
            rcases List.mem_cons.1 hx with rfl | hx
            · exact hg
            · exact hall x hx)
          rw [show i + (j + 1) = i + 1 + j by omega] at this
          exact this
    · refine ⟨fs, .error .valueError, ?_, rfl, ?_, ?_, fun _ _ => rfl⟩
      · rw [saveDataTxt, if_pos fun h => hg (Or.inl h), if_neg fun h => hg (Or.inr h)]
      · classical
        rw [if_neg fun h => hg (List.forall_mem_cons.1 h).1]
      · intro j d' _ hall
        exact absurd (hall d (by simp)) hg

/-- **C184.** The text export to an existing directory, under a name without slash, creates two directories if they do not
exist, and writes the meta data in the first one; in the second one it writes the arrays of all records before the first
whose number of dimensions is wrong, in which case it raises `ValueError`.  Nothing else changes; files left there by a
previous export stay. -/
theorem C184_txt (ndim : D → ℕ) (flat : D → D) (db : DB D) (dest : Key) (hd : Dest dest) (filename : Option Key)
    (f : Key) (hfn : filename.getD db.name = f) (hf : '/' ∉ f) (hne : f ≠ []) (force : Bool) (fs : Disk D)
    (hdir : fs.isDir dest = true) (h1 : fs.file (under dest f) = none)
    (h2 : fs.file (under (under dest f) (f ++ "_data".toList)) = none) :
    ∃ fs' r, db.exportTo ndim flat dest filename "txt".toList force fs = (fs', r) ∧
      (∀ q, fs'.isDir q = true ↔ fs.isDir q = true ∨ q = under dest f ∨ q = under (under dest f) (f ++ "_data".toList)) ∧
      fs'.file (under (under dest f) (f ++ ".json".toList)) = some (.json ⟨db.name, db.markerNames, jsonDesc db.desc,
        .dataDir (f ++ "_data".toList), db.records.zipIdx.map fun p => (p.2, p.1.2)⟩) ∧
      (r = .ok () ↔ ∀ d ∈ db.data, Good ndim force d) ∧ (r ≠ .ok () → r = .error .valueError) ∧
      (∀ j d, db.data[j]? = some d → (∀ d' ∈ db.data.take (j + 1), Good ndim force d') →
        fs'.file (under (under (under dest f) (f ++ "_data".toList)) (decStr j ++ ".txt".toList)) =
          some (.txt (if ndim d = 2 then d else flat d))) ∧
      (∀ q, q ≠ under (under dest f) (f ++ ".json".toList) → (∀ j, j < db.data.length →
        q ≠ under (under (under dest f) (f ++ "_data".toList)) (decStr j ++ ".txt".toList)) → fs'.file q = fs.file q) ∧
      loadFrom fs' (under (under dest f) (f ++ ".json".toList)) = .error .keyError := by
  have hdata : '/' ∉ f ++ "_data".toList := slash_append hf (by decide)
  have hjson : '/' ∉ f ++ ".json".toList := slash_append hf (by decide)
  have hd1 : Dest (under dest f) := dest_under hf hne
  have hd2 : Dest (under (under dest f) (f ++ "_data".toList)) := dest_under hdata (by simp)
  obtain ⟨fs1, a1, a2, a3⟩ := mkdirIf_ok hd hf hdir h1
  obtain ⟨fs2, b1, b2, b3⟩ := mkdirIf_ok (fs := fs1) hd1 hdata ((a3 _).2 (Or.inl rfl)) (by rw [a2]; exact h2)
  have hdirs : textDirs dest f = (under dest f, under (under dest f) (f ++ "_data".toList)) := by
    unfold textDirs
    simp only []
    rw [pathJoin_under hd (head_ne hf), pathJoin_under hd1 (head_ne hdata)]
  obtain ⟨fs3, r, c1, c2, c3, c4, c5⟩ := saveDataTxt_spec ndim flat force hd2 db.data 0
    (fs2.write (under (under dest f) (f ++ ".json".toList)) (.json (db.jsonMeta (.dataDir (f ++ "_data".toList)))))
    ((b3 _).2 (Or.inl rfl))
  have hsep : ∀ j, under (under dest f) (f ++ ".json".toList) ≠
      under (under (under dest f) (f ++ "_data".toList)) (decStr j ++ ".txt".toList) := by
    intro j h
    have hp : under dest f ≠ [] := by
      unfold under
      split_ifs
      · exact hne
      · simp
    have : under (under (under dest f) (f ++ "_data".toList)) (decStr j ++ ".txt".toList) =
        under (under dest f) (f ++ "_data".toList ++ '/' :: (decStr j ++ ".txt".toList)) := by
      unfold under
      rw [if_neg (by split_ifs <;> simp [*])]
      split_ifs <;> simp_all
    rw [this] at h
    have := under_inj h
    exact hjson (this ▸ List.mem_append_right _ List.mem_cons_self)
  have hrec : (db.jsonMeta (.dataDir (f ++ "_data".toList))) = ⟨db.name, db.markerNames, jsonDesc db.desc,
        .dataDir (f ++ "_data".toList), db.records.zipIdx.map fun p => (p.2, p.1.2)⟩ := by
    unfold DB.jsonMeta DB.metaRecords DB.labels
    rw [List.zipIdx_map, List.map_map]
    rfl
  have hfile : fs3.file (under (under dest f) (f ++ ".json".toList)) =
      some (.json (db.jsonMeta (.dataDir (f ++ "_data".toList)))) := by
    rw [c5]
    · show (if _ then _ else _) = _
      rw [if_pos rfl]
    · intro j _ _
      rw [Nat.zero_add]
      exact hsep j
  refine ⟨fs3, r, ?_, ?_, ?_, ?_, ?_, ?_, ?_, ?_⟩
  · unfold DB.exportTo createTextSubdirs
    rw [if_neg (by decide), if_pos rfl, hfn, hdirs]
    simp only []
    rw [a1]
    simp only [andThen]
    rw [b1]
    simp only []
    rw [save_under hd1 hjson ((b3 _).2 (Or.inr ((a3 _).2 (Or.inl rfl))))]
    exact c1
  · intro q
    rw [c2]
    show fs2.isDir q = true ↔ _
    rw [b3, a3]
    tauto
  · rw [hfile, hrec]
  · rw [c3]
    split_ifs with h
    · exact ⟨fun _ => h, fun _ => rfl⟩
    · exact ⟨fun h' => (by cases h'), fun h' => absurd h' h⟩
  · rw [c3]
    split_ifs
    · intro h
      exact absurd rfl h
    · intro _
      rfl
  · intro j d hj hall
    have := c4 j d hj hall
    rwa [Nat.zero_add] at this
  · intro q hq hq'
    rw [c5]
    · show (if _ then _ else _) = _
      rw [if_neg hq, b2, a2]
    · intro j hj _
      rw [Nat.zero_add]
      exact hq' j hj
  · unfold loadFrom
    rw [hfile]
    rfl

/-- **C184.** The `mat` export writes one file, with descriptions only if there are some. -/
theorem C184_mat (ndim : D → ℕ) (flat : D → D) (db : DB D) (dest : Key) (hd : Dest dest) (filename : Option Key)
    (force : Bool) (hf : '/' ∉ filename.getD db.name) (fs : Disk D) (hdir : fs.isDir dest = true) :
    ∃ fs' m, db.exportTo ndim flat dest filename "mat".toList force fs = (fs', .ok ()) ∧ fs'.isDir = fs.isDir ∧
      fs'.file (under dest (filename.getD db.name ++ ".mat".toList)) = some (.mat m) ∧
      (∀ q, q ≠ under dest (filename.getD db.name ++ ".mat".toList) → fs'.file q = fs.file q) ∧
      m.name = db.name ∧ m.markerNames = db.markerNames ∧ m.data.zip m.labels = db.records ∧
      m.data.length = m.labels.length ∧ (m.desc = none ↔ db.desc = .none) ∧ ∀ x, m.desc = some x → x = db.desc := by
  have hn : '/' ∉ filename.getD db.name ++ ".mat".toList := slash_append hf (by decide)
  refine ⟨fs.write (under dest (filename.getD db.name ++ ".mat".toList)) (.mat db.matMeta), db.matMeta, ?_, rfl, ?_, ?_, rfl, rfl,
    ?_, ?_, ?_, ?_⟩
  · unfold DB.exportTo
    rw [if_neg (by decide), if_neg (by decide), if_pos rfl]
    exact save_under hd hn hdir
  · show (if _ then _ else _) = _
    rw [if_pos rfl]
  · intro q hq
    show (if _ then _ else _) = _
    rw [if_neg hq]
  · show (db.records.map Prod.fst).zip (db.records.map Prod.snd) = _
    exact (List.zip_of_prod rfl rfl).symm
  · show (db.records.map Prod.fst).length = (db.records.map Prod.snd).length
    rw [List.length_map, List.length_map]
  · show (if db.hasDescriptions then some db.desc else none) = none ↔ _
    unfold DB.hasDescriptions
    by_cases h : db.desc = .none <;> simp [h]
  · intro x hx
    change (if db.hasDescriptions then some db.desc else none) = some x at hx
    split_ifs at hx
    exact (Option.some.inj hx).symm

/-- **C184.** Unknown types raise `ValueError`, and a destination which is not a directory raises `IOError`; nothing is
written. -/
theorem C184_errors (ndim : D → ℕ) (flat : D → D) (db : DB D) (dest : Key) (filename : Option Key) (t : Key) (force : Bool)
    (fs : Disk D) :
    (t ∉ ["npz".toList, "txt".toList, "mat".toList] →
      db.exportTo ndim flat dest filename t force fs = (fs, .error .valueError)) ∧
    (t ∈ ["npz".toList, "txt".toList, "mat".toList] → Dest dest → '/' ∉ filename.getD db.name → fs.isDir dest = false →
      fs.exist (under dest (filename.getD db.name)) = false →
      db.exportTo ndim flat dest filename t force fs = (fs, .error .ioError)) := by
  constructor
  · intro h
    simp only [List.mem_cons, List.not_mem_nil, or_false, not_or] at h
    unfold DB.exportTo
    simp only []
    rw [if_neg h.1, if_neg h.2.1, if_neg h.2.2]
  · intro ht hd hf hdir hex
    rw [List.mem_cons, List.mem_cons, List.mem_singleton] at ht
    unfold DB.exportTo
    simp only []
    rcases ht with rfl | rfl | rfl
    · rw [if_pos rfl, save_no_dir hd (slash_append hf (by decide)) hdir]
      rfl
    · rw [if_neg (by decide), if_pos rfl]
      unfold createTextSubdirs textDirs
      simp only []
      rw [pathJoin_under hd (head_ne hf)]
      unfold mkdirIf mkdir
      rw [hex, dirname_under hd hf, hdir]
      rfl
    · rw [if_neg (by decide), if_neg (by decide), if_pos rfl, save_no_dir hd (slash_append hf (by decide)) hdir]

/-! ### What is printed -/

theorem joinStr_eq (sep : Key) (l : List Key) : joinStr sep l = sep.intercalate l := by
  induction l with
  | nil => rfl
  | cons s l ih =>
    cases l with
    | nil => simp [joinStr, List.intercalate]
    | cons t l =>
      rw [joinStr, ih]
      simp [List.intercalate, List.intersperse]
      simp

/-- **C184.** Loading with `verbose` fails when there is no record, although the database can be loaded, and otherwise
gives the same database; it tells the number of records and the shape of the first one. -/
theorem C184_verbose (shape : D → List ℕ) (fs : Disk D) (location : Key) :
    (∀ e, loadFrom fs location = .error e → loadVerbose shape fs location = ([], .error e)) ∧
    ∀ db, loadFrom fs location = .ok db →
      (db.records = [] → (loadVerbose shape fs location).2 = .error .valueError) ∧
      ∀ d ls rest, db.records = (d, ls) :: rest → loadVerbose shape fs location =
        (["Loaded ".toList ++ decStr (rest.length + 1) ++ " examples for ``".toList ++ db.name ++ "`` set.".toList,
          "Each data example is a (".toList ++ ", ".toList.intercalate ("T".toList :: ((shape d).drop 1).map decStr) ++
            ") array.".toList, "The second dimension corresponds to markers:".toList,
          "\t- ".toList ++ "\n\t- ".toList.intercalate db.markerNames], .ok db) := by
  constructor
  · intro e he
    unfold loadVerbose
    rw [he]
  · intro db hdb
    constructor
    · intro h0
      unfold loadVerbose DB.printInfo DB.dimension
      rw [hdb]
      simp only []
      rw [h0]
    · intro d ls rest hr
      unfold loadVerbose DB.printInfo DB.dimension
      rw [hdb]
      simp only []
      rw [hr]
      simp only []
      rw [joinStr_eq, joinStr_eq]
      rfl

/-- **C184.** Records added one by one are in the database in this order; its dimension is that of the first one. -/
theorem C184_add (shape : D → List ℕ) (name : Key) (markers : List Key) (desc : Desc) (rs : List (D × List Label)) :
    let db := rs.foldl (fun db r => db.add r.1 r.2) (⟨name, markers, [], desc⟩ : DB D)
    db = ⟨name, markers, rs, desc⟩ ∧ db.size = rs.length ∧
      db.dimension shape = match rs with | [] => .error .valueError | r :: _ => .ok (shape r.1).tail := by
  have h : ∀ (l acc : List (D × List Label)), l.foldl (fun (db : DB D) r => db.add r.1 r.2) ⟨name, markers, acc, desc⟩ =
      ⟨name, markers, acc ++ l, desc⟩ := by
    intro l
    induction l with
    | nil => intro acc; simp
    | cons r l ih =>
      intro acc
      rw [List.foldl_cons]
      show List.foldl _ (⟨name, markers, acc ++ [r], desc⟩ : DB D) l = _
      rw [ih]
      simp
  have h' := h rs []
  rw [List.nil_append] at h'
  intro db
  refine ⟨h', ?_, ?_⟩
  · show DB.size (rs.foldl _ _) = _
    rw [h']
    rfl
  · show DB.dimension shape (rs.foldl _ _) = _
    rw [h']
    cases rs with
    | nil => rfl
    | cons r l =>
      show Except.ok ((shape r.1).drop 1) = _
      rw [List.drop_one]

/-! ### Examples -/

/-- A disk with two directories and a file. -/
def exDisk : Disk ℕ := ⟨fun d => d == "out".toList || d == "out/sub".toList || d == "/abs".toList,
  fun q => if q = "out/x".toList then some (.txt 3) else none⟩

example : ∃ fs', exDB.exportTo (fun _ => 2) id "out".toList none "npz".toList false exDisk = (fs', .ok ()) ∧
    loadFrom fs' "out/db.json".toList = .ok exDB := by
  obtain ⟨fs', h1, -, -, h2⟩ := C184_npz (fun _ => 2) id exDB "out".toList (Or.inr (by unfold Plain; decide)) none false (by decide)
    exDisk rfl
  exact ⟨fs', h1, h2⟩

example : ∃ fs', exDB.exportTo (fun _ => 2) id "out".toList (some "/abs/b".toList) "npz".toList false exDisk = (fs', .ok ()) ∧
    loadFrom fs' "/abs/b.json".toList = .ok exDB :=
  C184_npz_absolute (fun _ => 2) id exDB "out".toList "/abs".toList "b".toList (by unfold Plain; decide) rfl (by decide) false
    exDisk rfl

example : ∃ fs', exDB.exportTo (fun _ => 2) id "out".toList (some "sub/b".toList) "npz".toList false exDisk = (fs', .ok ()) ∧
    loadFrom fs' "out/sub/b.json".toList = .error .ioError :=
  C184_npz_subdirectory (fun _ => 2) id exDB "out".toList (Or.inr (by unfold Plain; decide)) "sub".toList "b".toList
    (by unfold Plain; decide) (by decide) (by decide) false exDisk rfl rfl

/-- The second array has three dimensions: the first one has been written. -/
example : ∃ fs' r, exDB.exportTo (fun d => d - 3) id "out".toList none "txt".toList false exDisk = (fs', r) ∧
    r = .error .valueError ∧ fs'.file "out/db/db_data/0.txt".toList = some (.txt 5) ∧ fs'.isDir "out/db".toList = true := by
  obtain ⟨fs', r, h1, h2, -, h4, h5, h6, -, -⟩ := C184_txt (fun d => d - 3) id exDB "out".toList (Or.inr (by unfold Plain; decide)) none
    "db".toList rfl (by decide) (by decide) false exDisk rfl rfl rfl
  have hr : r ≠ .ok () := by
    intro h
    have := h4.1 h 6 (by decide)
    unfold Good at this
    revert this
    decide
  refine ⟨fs', r, h1, h5 hr, ?_, (h2 _).2 (Or.inr (Or.inl (by decide)))⟩
  exact h6 0 5 rfl (by unfold Good; decide)

example : ∃ fs' m, exDB.exportTo (fun _ => 2) id "out".toList none "mat".toList false exDisk = (fs', .ok ()) ∧
    fs'.file "out/db.mat".toList = some (.mat m) ∧ m.data.zip m.labels = exDB.records := by
  obtain ⟨fs', m, h1, -, h2, -, -, -, h3, -⟩ := C184_mat (fun _ => 2) id exDB "out".toList (Or.inr (by unfold Plain; decide)) none
    false (by decide) exDisk rfl
  exact ⟨fs', m, h1, h2, h3⟩

example : exDB.exportTo (fun _ => 2) id "no".toList none "txt".toList false exDisk = (exDisk, .error .ioError) :=
  (C184_errors (fun _ => 2) id exDB "no".toList none "txt".toList false exDisk).2 (by decide) (Or.inr (by unfold Plain; decide))
    (by decide) rfl rfl

/-- An empty database can be loaded, but not with `verbose`. -/
example : ∃ fs', (⟨"db".toList, [], [], .none⟩ : DB ℕ).exportTo (fun _ => 2) id [] none "npz".toList false
      ⟨fun d => d == [], fun _ => none⟩ = (fs', .ok ()) ∧
    (∃ db, loadFrom fs' "db.json".toList = .ok db) ∧ (loadVerbose (fun _ => [1, 2]) fs' "db.json".toList).2 = .error .valueError := by
  obtain ⟨fs', h1, -, -, h2⟩ := C184_npz (fun _ => 2) id (⟨"db".toList, [], [], .none⟩ : DB ℕ) [] (Or.inl rfl) none false (by decide)
    ⟨fun d => d == [], fun _ => none⟩ rfl
  exact ⟨fs', h1, ⟨_, h2⟩, ((C184_verbose (fun _ => [1, 2]) fs' _).2 _ h2).1 rfl⟩

end Verif.Motion
