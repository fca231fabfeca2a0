import Verif.Features.Mfcc
import Verif.Features.Props
import Verif.Logger.Lemmas
import Verif.Datasets.Props

/-!
# Property C185: parameters of MFCC
-/

namespace Verif.Features

open Verif.Logger (Key)
open Verif.Objects (mapM_py_ok)
open Verif.Datasets (mapM_exists)

variable {A : Type}

/-! ### Specification -/

/-- Streams and codebooks with `n` columns. -/
def Wide (n : ℕ) (s : List (List ℝ)) : Prop := ∀ x ∈ s, x.length = n

/-- The number of coefficients which arguments ask for: 13 when they do not tell. -/
def Count (kw : Kw) (n : ℕ) : Prop :=
  dictGet? kw "n_mfcc".toList = some (.int n) ∨ dictGet? kw "n_mfcc".toList = none ∧ n = 13

/-- What the routines of librosa and SciPy are supposed to do. -/
structure MelTools.OK (T : MelTools A) : Prop where
  mel : ∀ y sr kw s, T.mel y sr kw = .ok s → s.frames ≠ []
  logamplitude : ∀ s, (T.logamplitude s).frames.length = s.frames.length
  dct : ∀ n m : ℕ, 0 < n → ∃ d, T.dct (.int n) m = .ok d ∧ d.length = n
  delta : ∀ s k n, (T.delta s k).length = s.length ∧ (Wide n s → Wide n (T.delta s k))
  vq : ∀ s c n m, s ≠ [] → c ≠ [] → Wide n s → Wide m c →
    (n = m → ∃ q, T.vq s c = .ok q ∧ q.length = s.length ∧ ∀ x ∈ q, x < c.length) ∧
    (n ≠ m → T.vq s c = .error .valueError)

/-- Algorithms which build codebooks: some centroids with as many columns as data. -/
def BookOK (book : List (List ℝ) → ℕ → Py (List (List ℝ))) : Prop :=
  ∀ x k c, book x k = .ok c → c ≠ [] ∧ ∀ n, Wide n x → Wide n c

/-! ### Arguments -/

theorem dictUpdate_cons (k : Key) (kw : Kw) : ∀ (v : Arg) (d : Kw), (dictKeys (d ++ kw)).Nodup → k ∉ dictKeys d →
    dictUpdate ((k, v) :: d) kw = (k, (dictGet? kw k).getD v) :: (d ++ kw.filter fun p => p.1 ≠ k) := by
  induction kw with
  | nil =>
    intro v d _ _
    simp [dictUpdate, dictGet?]
  | cons p kw ih =>
    intro v d hn hk
    have hstep : dictUpdate ((k, v) :: d) (p :: kw) = dictUpdate (dictSet ((k, v) :: d) p.1 p.2) kw := rfl
    rw [hstep]
    have hp : p.1 ∉ dictKeys d := by
      intro h
      unfold dictKeys at hn h
      rw [List.map_append, List.map_cons] at hn
      exact (List.nodup_append.1 hn).2.2 _ h _ List.mem_cons_self rfl
    by_cases he : p.1 = k
    · have h1 : dictSet ((k, v) :: d) p.1 p.2 = (k, p.2) :: d := by
        unfold dictSet
        rw [if_pos he.symm, he]
      rw [h1, ih]
      · have h2 : dictGet? kw k = none := by
          rcases hg : dictGet? kw k with _ | x
          · rfl
          · exfalso
            have : k ∈ dictKeys kw := by
              rw [← dictGet?_isSome, hg]
              rfl
            unfold dictKeys at hn this
            rw [List.map_append, List.map_cons] at hn
            have hc := (List.nodup_append.1 hn).2.1
            rw [List.nodup_cons, he] at hc
            exact hc.1 this
        have h3 : dictGet? (p :: kw) k = some p.2 := by
          unfold dictGet?
          rw [List.find?_cons_of_pos (by simpa using he)]
          rfl
        rw [h2, h3]
        simp [he]
      · unfold dictKeys at hn ⊢
        refine hn.sublist ?_
        rw [List.map_append, List.map_append, List.map_cons]
        exact (List.Sublist.refl _).append (List.sublist_cons_self ..)
      · exact hk
    · have h1 : dictSet ((k, v) :: d) p.1 p.2 = (k, v) :: (d ++ [p]) := by
        rw [dictSet, if_neg (Ne.symm he), dictSet_fresh _ _ _ hp]
      rw [h1, ih]
      · have h3 : dictGet? (p :: kw) k = dictGet? kw k := by
          unfold dictGet?
          rw [List.find?_cons_of_neg (by simpa using he)]
        rw [h3]
        simp [he]
      · simpa [dictKeys] using hn
      · unfold dictKeys at hk ⊢
        rw [List.map_append, List.mem_append]
        rintro (h | h)
        · exact hk h
        · exact he (List.mem_singleton.1 h).symm

theorem complete_eq (kw : Kw) (hn : (dictKeys kw).Nodup) : completeMfccParams MFCC_PARAMS kw =
    (MFCC_PARAMS, ("n_mfcc".toList, (dictGet? kw "n_mfcc".toList).getD (.int 13)) ::
      kw.filter fun p => p.1 ≠ "n_mfcc".toList) := by
  unfold completeMfccParams MFCC_PARAMS
  rw [dictUpdate_cons _ _ _ [] hn (by simp [dictKeys])]
  rfl

theorem mem_complete {kw : Kw} {k : Key} (hk : k ≠ "n_mfcc".toList) (v : Arg) :
    k ∈ dictKeys (("n_mfcc".toList, v) :: kw.filter fun p => p.1 ≠ "n_mfcc".toList) ↔ k ∈ dictKeys kw := by
  unfold dictKeys
  generalize "n_mfcc".toList = n at hk ⊢
  rw [List.map_cons, List.mem_cons, List.mem_map, List.mem_map]
  constructor
  · rintro (h | ⟨p, hp, rfl⟩)
    · exact absurd h hk
    · exact ⟨p, (List.mem_filter.1 hp).1, rfl⟩
  · rintro ⟨p, hp, rfl⟩
    exact Or.inr ⟨p, List.mem_filter.2 ⟨hp, by simpa using hk⟩, rfl⟩

/-- The coefficients given by the body of `mfcc`. -/
theorem mfccBody_ok (T : MelTools A) (data : A) (sr : ℚ) (n : Arg) (kw : Kw) (hy : "y".toList ∉ dictKeys kw) (m : List (List ℝ)) :
    T.mfccBody data sr n kw = .ok m ↔
      ∃ s d, T.mel data sr kw = .ok s ∧ T.dct n (T.logamplitude s).bands = .ok d ∧
        List.Forall₂ (fun x c => List.Forall₂ (fun r v => v = (List.zipWith (· * ·) r x).sum) d c)
          (T.logamplitude s).frames m := by
  unfold MelTools.mfccBody
  rw [if_neg hy]
  constructor
  · intro h
    rcases hs : T.mel data sr kw with e | s
    · rw [hs] at h
      cases h
    rw [hs] at h
    simp only [bind, Except.bind] at h
    rcases hd : T.dct n (T.logamplitude s).bands with e | d
    · rw [hd] at h
      cases h
    rw [hd] at h
    obtain rfl := Except.ok.inj h
    refine ⟨s, d, rfl, hd, ?_⟩
    rw [List.forall₂_map_right_iff, List.forall₂_same]
    intro x _
    rw [List.forall₂_map_right_iff, List.forall₂_same]
    intro r _
    rfl
  · rintro ⟨s, d, h1, h2, h3⟩
    rw [h1]
    simp only [bind, Except.bind]
    rw [h2]
    have : m = (T.logamplitude s).frames.map fun x => d.map fun r => dotList r x := by
      rw [← List.forall₂_eq_eq_eq, List.forall₂_map_right_iff]
      refine List.Forall₂.imp ?_ h3.flip
      intro c x hcx
      rw [← List.forall₂_eq_eq_eq, List.forall₂_map_right_iff]
      exact hcx.flip
    rw [this]
    rfl

/-- **C185.** The coefficients of a sound with arguments `kw`: they are as many as asked for, 13 by default, and all other
arguments go to the spectrogram of the sound at its rate. -/
theorem C185_mfcc (T : MelTools A) (data : A) (sr : ℚ) (kw : Kw) (hn : (dictKeys kw).Nodup)
    (hr : ∀ k ∈ ["data".toList, "sr".toList, "y".toList], k ∉ dictKeys kw) (m : List (List ℝ)) :
    T.mfcc data sr (completeMfccParams MFCC_PARAMS kw).2 = .ok m ↔
      ∃ s d, T.mel data sr (kw.filter fun p => p.1 ≠ "n_mfcc".toList) = .ok s ∧
        T.dct ((dictGet? kw "n_mfcc".toList).getD (.int 13)) (T.logamplitude s).bands = .ok d ∧
        List.Forall₂ (fun x c => List.Forall₂ (fun r v => v = (List.zipWith (· * ·) r x).sum) d c)
          (T.logamplitude s).frames m := by
  rw [complete_eq kw hn]
  unfold MelTools.mfcc
  rw [if_neg, dictGet?, List.find?_cons_of_pos (by simp), List.filter_cons_of_neg (by simp), List.filter_filter]
  · simp only [Option.map_some, Option.getD_some, Bool.and_self]
    apply mfccBody_ok
    intro h
    apply hr "y".toList (by simp)
    have := (mem_complete (kw := kw) (k := "y".toList) (by decide) (.int 0)).1
    apply this
    unfold dictKeys at h ⊢
    rw [List.map_cons]
    exact List.mem_cons_of_mem _ h
  · rintro (h | h)
    · exact hr "data".toList (by simp) ((mem_complete (by decide) _).1 h)
    · exact hr "sr".toList (by simp) ((mem_complete (by decide) _).1 h)

/-- **C185.** A call of `mfcc` itself gives 20 coefficients by default. -/
theorem C185_direct (T : MelTools A) (data : A) (sr : ℚ) (kw : Kw)
    (hr : ∀ k ∈ ["data".toList, "sr".toList, "y".toList], k ∉ dictKeys kw) (m : List (List ℝ)) :
    T.mfcc data sr kw = .ok m ↔
      ∃ s d, T.mel data sr (kw.filter fun p => p.1 ≠ "n_mfcc".toList) = .ok s ∧
        T.dct ((dictGet? kw "n_mfcc".toList).getD (.int 20)) (T.logamplitude s).bands = .ok d ∧
        List.Forall₂ (fun x c => List.Forall₂ (fun r v => v = (List.zipWith (· * ·) r x).sum) d c)
          (T.logamplitude s).frames m := by
  unfold MelTools.mfcc
  rw [if_neg]
  · exact mfccBody_ok T data sr _ _ (fun h => by
      unfold dictKeys at h
      obtain ⟨p, hp, e⟩ := List.mem_map.1 h
      exact hr "y".toList (by simp) (List.mem_map.2 ⟨p, (List.mem_filter.1 hp).1, e⟩)) m
  · rintro (h | h)
    · exact hr "data".toList (by simp) h
    · exact hr "sr".toList (by simp) h

/-- Arguments which are given twice. -/
theorem mfcc_reserved (T : MelTools A) (data : A) (sr : ℚ) (kw : Kw) (hn : (dictKeys kw).Nodup)
    (hr : ∃ k ∈ ["data".toList, "sr".toList, "y".toList], k ∈ dictKeys kw) :
    T.mfcc data sr (completeMfccParams MFCC_PARAMS kw).2 = .error .typeError := by
  rw [complete_eq kw hn]
  unfold MelTools.mfcc
  split_ifs with h
  · rfl
  · rw [not_or] at h
    obtain ⟨k, hk, hkw⟩ := hr
    rw [List.mem_cons, List.mem_cons, List.mem_singleton] at hk
    rcases hk with rfl | rfl | rfl
    · exact absurd ((mem_complete (by decide) _).2 hkw) h.1
    · exact absurd ((mem_complete (by decide) _).2 hkw) h.2
    · unfold MelTools.mfccBody
      rw [if_pos]
      have := (mem_complete (kw := kw) (k := "y".toList) (by decide) (.int 0)).2 hkw
      rw [List.filter_cons_of_neg (by simp), List.filter_filter]
      simp only [Bool.and_self]
      unfold dictKeys at this ⊢
      rw [List.map_cons, List.mem_cons] at this
      exact this.resolve_left (by decide)

/-- **C185.** The arguments `data`, `sr` and `y` cannot be given: `TypeError`, for features of a sound which can be read as
for codebooks of some sounds the first of which can be read. -/
theorem C185_reserved (T : MelTools A) (read : Key → Py (ℚ × A)) (book : List (List ℝ) → ℕ → Py (List (List ℝ)))
    (path : Key) (wavs : List Key) (sr : ℚ) (data : A) (hread : read path = .ok (sr, data)) (kw : Kw) (hn : (dictKeys kw).Nodup)
    (hr : ∃ k ∈ ["data".toList, "sr".toList, "y".toList], k ∈ dictKeys kw) (cbs : List (List (List ℝ))) (lags : List ℤ)
    (ks : List ℕ) :
    T.wav2hac read MFCC_PARAMS path cbs lags kw = (MFCC_PARAMS, .error .typeError) ∧
    T.codebooks read book MFCC_PARAMS (path :: wavs) ks kw = (MFCC_PARAMS, .error .typeError) := by
  have hm := mfcc_reserved T data sr kw hn hr
  constructor
  · unfold MelTools.wav2hac
    rw [hread]
    simp only []
    split_ifs
    · rfl
    · unfold MelTools.hac
      simp only []
      rw [hm]
      rfl
  · unfold MelTools.codebooks MelTools.mfccs
    rw [hread]
    simp only []
    rw [hm]
    rfl

theorem mfccs_state (T : MelTools A) (read : Key → Py (ℚ × A)) (kw : Kw) (wavs : List Key) : ∀ g,
    (T.mfccs read kw g wavs).1 = g := by
  induction wavs with
  | nil => intro g; rfl
  | cons w wavs ih =>
    intro g
    unfold MelTools.mfccs
    rcases read w with e | ⟨sr, data⟩
    · rfl
    · simp only [completeMfccParams]
      rcases T.mfcc data sr (dictUpdate g kw) with e | m
      · rfl
      · simp only []
        have := ih g
        rcases h : T.mfccs read kw g wavs with ⟨g', e | ms⟩
        · rw [h] at this
          exact this
        · rw [h] at this
          exact this

/-- **C185.** No call changes the default parameters. -/
theorem C185_defaults (T : MelTools A) (read : Key → Py (ℚ × A)) (book : List (List ℝ) → ℕ → Py (List (List ℝ))) (g : Kw)
    (data : A) (sr : ℚ) (path : Key) (wavs : List Key) (cbs : List (List (List ℝ))) (lags : List ℤ) (ks : List ℕ) (kw : Kw) :
    (T.hac g data sr cbs lags kw).1 = g ∧ (T.wav2hac read g path cbs lags kw).1 = g ∧
      (T.codebooks read book g wavs ks kw).1 = g := by
  refine ⟨rfl, ?_, ?_⟩
  · unfold MelTools.wav2hac
    rcases read path with e | ⟨sr, data⟩
    · rfl
    · simp only []
      split_ifs
      · rfl
      · rfl
  · have := mfccs_state T read kw wavs g
    unfold MelTools.codebooks
    rcases h : T.mfccs read kw g wavs with ⟨g', e | ms⟩
    · rw [h] at this
      exact this
    · rw [h] at this
      exact this

/-! ### Codebooks and features -/

theorem mfcc_wide {T : MelTools A} (hT : T.OK) {data : A} {sr : ℚ} {kw : Kw} (hn : (dictKeys kw).Nodup) {n : ℕ} (hc : Count kw n)
    (h0 : 0 < n) {m : List (List ℝ)} (h : T.mfcc data sr (completeMfccParams MFCC_PARAMS kw).2 = .ok m) : m ≠ [] ∧ Wide n m := by
  have hr : ∀ k ∈ ["data".toList, "sr".toList, "y".toList], k ∉ dictKeys kw := by
    intro k hk hkw
    rw [mfcc_reserved T data sr kw hn ⟨k, hk, hkw⟩] at h
    cases h
  obtain ⟨s, d, h1, h2, h3⟩ := (C185_mfcc T data sr kw hn hr m).1 h
  have hget : (dictGet? kw "n_mfcc".toList).getD (.int 13) = .int n := by
    rcases hc with hc | ⟨hc, rfl⟩
    · rw [hc]; rfl
    · rw [hc]; rfl
  rw [hget] at h2
  obtain ⟨d', h4, h5⟩ := hT.dct n (T.logamplitude s).bands h0
  rw [h2] at h4
  obtain rfl := Except.ok.inj h4
  constructor
  · rintro rfl
    have := h3.length_eq
    rw [hT.logamplitude] at this
    exact hT.mel _ _ _ _ h1 (List.length_eq_zero_iff.1 this)
  · clear h h1 h2 hget
    intro c hcm
    obtain ⟨i, hi, rfl⟩ := List.mem_iff_getElem.1 hcm
    have := (List.forall₂_iff_get.1 h3).2 i (by rw [h3.length_eq]; exact hi) hi
    rw [← h5]
    exact this.length_eq.symm

theorem coocs_length {v : List (List ℕ)} {n : ℕ} (h : ∀ x ∈ v, x.length = n) : v.flatten.length = v.length * n := by
  induction v with
  | nil => simp
  | cons a v ih =>
    rw [List.flatten_cons, List.length_append, h a List.mem_cons_self, ih fun x hx => h x (List.mem_cons_of_mem _ hx),
      List.length_cons]
    ring

theorem cooc_ok {T : MelTools A} (hT : T.OK) {n : ℕ} {s c : List (List ℝ)} (hs : s ≠ []) (hc : c ≠ []) (hws : Wide n s)
    (hwc : Wide n c) (lags : List ℕ) (hl : lags ≠ []) (hpos : ∀ l ∈ lags, 1 ≤ l) :
    ∃ v, T.cooc (lags.map fun l : ℕ => (l : ℤ)) (s, c) = .ok v ∧ v.length = lags.length * c.length ^ 2 := by
  obtain ⟨q, h1, -, h3⟩ := (hT.vq s c n n hs hc hws hwc).1 rfl
  obtain ⟨vs, hvs⟩ := mapM_exists (coocurrences q c.length) (lags.map fun l : ℕ => (l : ℤ)) (by
    intro x hx
    obtain ⟨l, hl, rfl⟩ := List.mem_map.1 hx
    obtain ⟨v, hv, -⟩ := C62_counts q c.length l (hpos l hl) h3
    exact ⟨v, hv⟩)
  have hF := mapM_py_ok.1 hvs
  have hlen : vs.length = lags.length := by
    rw [← hF.length_eq, List.length_map]
  refine ⟨vs.flatten, ?_, ?_⟩
  · unfold MelTools.cooc
    simp only [bind, Except.bind]
    rw [h1]
    simp only []
    rw [hvs]
    simp only []
    unfold hstack1
    rw [if_neg]
    rintro rfl
    exact hl (List.length_eq_zero_iff.1 hlen.symm)
  · rw [← hlen]
    apply coocs_length
    intro x hx
    obtain ⟨i, hi, rfl⟩ := List.mem_iff_getElem.1 hx
    have hi' : i < lags.length := by omega
    have := (List.forall₂_iff_get.1 hF).2 i (by rw [List.length_map]; exact hi') hi
    simp only [List.get_eq_getElem, List.getElem_map] at this
    obtain ⟨v, hv, hv', -⟩ := C62_counts q c.length lags[i] (hpos _ (List.getElem_mem hi')) h3
    rw [this] at hv
    obtain rfl := Except.ok.inj hv
    exact hv'

/-- The codebooks of streams have as many columns as them. -/
theorem books_wide {T : MelTools A} (hT : T.OK) {book : List (List ℝ) → ℕ → Py (List (List ℝ))} (hb : BookOK book)
    {ms : List (List (List ℝ))} {n : ℕ} (hw : ∀ m ∈ ms, Wide n m) {ks : List ℕ} {cbs : List (List (List ℝ))}
    (h : T.books book ms ks = .ok cbs) : cbs.length = 3 ∧ ∀ c ∈ cbs, c ≠ [] ∧ Wide n c := by
  have hv : ∀ (f : List (List ℝ) → List (List ℝ)) (x : List (List ℝ)), (∀ m, Wide n m → Wide n (f m)) →
      Datasets.vstackAll (ms.map f) = .ok x → Wide n x := by
    intro f x hf hx
    unfold Datasets.vstackAll at hx
    split_ifs at hx
    obtain rfl := Except.ok.inj hx
    intro y hy
    obtain ⟨m', hm', hy⟩ := List.mem_flatten.1 hy
    obtain ⟨m, hm, rfl⟩ := List.mem_map.1 hm'
    exact hf m (hw m hm) y hy
  unfold MelTools.books at h
  simp only [bind, Except.bind] at h
  rcases e0 : Datasets.vstackAll ms with e | x0
  · rw [e0] at h; cases h
  rw [e0] at h
  simp only [] at h
  rcases p0 : pyGet ks 0 with e | k0
  · rw [p0] at h; cases h
  rw [p0] at h
  simp only [] at h
  rcases b0 : book x0 k0 with e | c0
  · rw [b0] at h; cases h
  rw [b0] at h
  simp only [] at h
  rcases e1 : Datasets.vstackAll (ms.map fun m => T.delta m 1) with e | x1
  · rw [e1] at h; cases h
  rw [e1] at h
  simp only [] at h
  rcases p1 : pyGet ks 1 with e | k1
  · rw [p1] at h; cases h
  rw [p1] at h
  simp only [] at h
  rcases b1 : book x1 k1 with e | c1
  · rw [b1] at h; cases h
  rw [b1] at h
  simp only [] at h
  rcases e2 : Datasets.vstackAll (ms.map fun m => T.delta m 2) with e | x2
  · rw [e2] at h; cases h
  rw [e2] at h
  simp only [] at h
  rcases p2 : pyGet ks 2 with e | k2
  · rw [p2] at h; cases h
  rw [p2] at h
  simp only [] at h
  rcases b2 : book x2 k2 with e | c2
  · rw [b2] at h; cases h
  rw [b2] at h
  obtain rfl := Except.ok.inj h
  refine ⟨rfl, ?_⟩
  rw [List.forall_mem_cons, List.forall_mem_cons, List.forall_mem_singleton]
  refine ⟨⟨(hb _ _ _ b0).1, (hb _ _ _ b0).2 _ (hv id x0 (fun _ h => h) (by rw [List.map_id]; exact e0))⟩,
    ⟨(hb _ _ _ b1).1, (hb _ _ _ b1).2 _ (hv _ x1 (fun m h => (hT.delta m 1 n).2 h) e1)⟩,
    ⟨(hb _ _ _ b2).1, (hb _ _ _ b2).2 _ (hv _ x2 (fun m h => (hT.delta m 2 n).2 h) e2)⟩⟩

theorem mfccs_wide {T : MelTools A} (hT : T.OK) (read : Key → Py (ℚ × A)) {kw : Kw} (hn : (dictKeys kw).Nodup) {n : ℕ}
    (hc : Count kw n) (h0 : 0 < n) (wavs : List Key) : ∀ ms g, T.mfccs read kw MFCC_PARAMS wavs = (g, .ok ms) →
    ∀ m ∈ ms, Wide n m := by
  induction wavs with
  | nil =>
    intro ms g h
    cases h
    simp
  | cons w wavs ih =>
    intro ms g h
    unfold MelTools.mfccs at h
    rcases hr : read w with e | ⟨sr, data⟩
    · rw [hr] at h; cases h
    rw [hr] at h
    simp only [] at h
    rcases hm : T.mfcc data sr (completeMfccParams MFCC_PARAMS kw).2 with e | m
    · rw [hm] at h; cases h
    rw [hm] at h
    simp only [] at h
    rcases ht : T.mfccs read kw (completeMfccParams MFCC_PARAMS kw).1 wavs with ⟨g', e | ms'⟩
    · rw [ht] at h; cases h
    rw [ht] at h
    cases h
    rw [List.forall_mem_cons]
    exact ⟨(mfcc_wide hT hn hc h0 hm).2, ih ms' _ ht⟩

/-- **C185.** Codebooks built with some arguments, and features computed later with some arguments: they fit when both ask
for the same number of coefficients, and the features then have a count for each pair of centroids of each codebook and
each lag; otherwise computing features raises `ValueError`. -/
theorem C185_same (T : MelTools A) (hT : T.OK) (read : Key → Py (ℚ × A)) (book : List (List ℝ) → ℕ → Py (List (List ℝ)))
    (hb : BookOK book) (wavs : List Key) (ks : List ℕ) (kw : Kw) (hkw : (dictKeys kw).Nodup) (n : ℕ) (hn : Count kw n) (h0 : 0 < n)
    (g : Kw) (cbs : List (List (List ℝ))) (h : T.codebooks read book MFCC_PARAMS wavs ks kw = (g, .ok cbs))
    (kw' : Kw) (hkw' : (dictKeys kw').Nodup) (hr : ∀ k ∈ ["data".toList, "sr".toList, "y".toList], k ∉ dictKeys kw') (n' : ℕ)
    (hn' : Count kw' n') (h0' : 0 < n') (data : A) (sr : ℚ) (s : Spec)
    (hmel : T.mel data sr (kw'.filter fun p => p.1 ≠ "n_mfcc".toList) = .ok s)
    (lags : List ℕ) (hl : lags ≠ []) (hpos : ∀ l ∈ lags, 1 ≤ l) :
    (n = n' → ∃ v, T.hac g data sr cbs (lags.map fun l : ℕ => (l : ℤ)) kw' = (MFCC_PARAMS, .ok v) ∧
      ∃ a b c, cbs = [a, b, c] ∧ v.length = lags.length * (a.length ^ 2 + b.length ^ 2 + c.length ^ 2)) ∧
    (n ≠ n' → T.hac g data sr cbs (lags.map fun l : ℕ => (l : ℤ)) kw' = (MFCC_PARAMS, .error .valueError)) := by
  -- the codebooks
  have hg : g = MFCC_PARAMS := by
    have := (C185_defaults T read book MFCC_PARAMS data sr [] wavs [] [] ks kw).2.2
    rw [h] at this
    exact this
  subst hg
  obtain ⟨h3, hcb⟩ : cbs.length = 3 ∧ ∀ c ∈ cbs, c ≠ [] ∧ Wide n c := by
    unfold MelTools.codebooks at h
    rcases hm : T.mfccs read kw MFCC_PARAMS wavs with ⟨g', e | ms⟩
    · rw [hm] at h; cases h
    rw [hm] at h
    simp only [Prod.mk.injEq] at h
    exact books_wide hT hb (mfccs_wide hT read hkw hn h0 wavs ms g' hm) h.2
  obtain ⟨a, b, c, rfl⟩ : ∃ a b c, cbs = [a, b, c] := List.length_eq_three.1 h3
  -- the sound
  have hget : (dictGet? kw' "n_mfcc".toList).getD (.int 13) = .int n' := by
    rcases hn' with hc | ⟨hc, rfl⟩
    · rw [hc]; rfl
    · rw [hc]; rfl
  obtain ⟨d, hd, -⟩ := hT.dct n' (T.logamplitude s).bands h0'
  have hm := (C185_mfcc T data sr kw' hkw' hr ((T.logamplitude s).frames.map fun x => d.map fun r =>
      (List.zipWith (· * ·) r x).sum)).2 ⟨s, d, hmel, by rw [hget]; exact hd, by
    rw [List.forall₂_map_right_iff, List.forall₂_same]
    intro x _
    rw [List.forall₂_map_right_iff, List.forall₂_same]
    intro r _
    rfl⟩
  generalize hmm : ((T.logamplitude s).frames.map fun x => d.map fun r => (List.zipWith (· * ·) r x).sum) = m at hm
  obtain ⟨hne, hw⟩ := mfcc_wide hT hkw' hn' h0' hm
  have hst : ∀ k, T.delta m k ≠ [] ∧ Wide n' (T.delta m k) := by
    intro k
    obtain ⟨h1, h2⟩ := hT.delta m k n'
    exact ⟨fun e => hne (List.length_eq_zero_iff.1 (by rw [← h1, e]; rfl)), h2 hw⟩
  rw [List.forall_mem_cons, List.forall_mem_cons, List.forall_mem_singleton] at hcb
  constructor
  · rintro rfl
    obtain ⟨v0, e0, l0⟩ := cooc_ok hT hne hcb.1.1 hw hcb.1.2 lags hl hpos
    obtain ⟨v1, e1, l1⟩ := cooc_ok hT (hst 1).1 hcb.2.1.1 (hst 1).2 hcb.2.1.2 lags hl hpos
    obtain ⟨v2, e2, l2⟩ := cooc_ok hT (hst 2).1 hcb.2.2.1 (hst 2).2 hcb.2.2.2 lags hl hpos
    refine ⟨v0 ++ (v1 ++ (v2 ++ [])), ?_, a, b, c, rfl, ?_⟩
    · unfold MelTools.hac
      simp only []
      rw [hm]
      simp only [bind, Except.bind, List.zip_cons_cons, List.zip_nil_right, List.mapM_cons, List.mapM_nil]
      rw [e0]
      simp only []
      rw [e1]
      simp only []
      rw [e2]
      rfl
    · rw [List.length_append, List.length_append, List.length_append, l0, l1, l2]
      simp
      ring
  · intro hne'
    have := (hT.vq m a n' n hne hcb.1.1 hw hcb.1.2).2 (Ne.symm hne')
    unfold MelTools.hac
    simp only []
    rw [hm]
    simp only [bind, Except.bind, List.zip_cons_cons, List.zip_nil_right, List.mapM_cons, List.mapM_nil]
    unfold MelTools.cooc
    simp only [bind, Except.bind]
    rw [this]
    rfl

/-! ### Examples -/

/-- Routines of the example. -/
noncomputable def exMel : MelTools ℕ where
  mel y _ _ := .ok ⟨2, [[1, y], [3, 4]]⟩
  logamplitude s := s
  dct n m := match n with | .int n => .ok (List.replicate n.toNat (List.replicate m 1)) | .other _ => .error .typeError
  delta s _ := s
  vq s c := if (s.headD []).length = (c.headD []).length then .ok (List.replicate s.length 0) else .error .valueError

theorem wide_head {n : ℕ} {s : List (List ℝ)} (hs : s ≠ []) (h : Wide n s) : (s.headD []).length = n := by
  cases s with
  | nil => exact absurd rfl hs
  | cons x s => exact h x List.mem_cons_self

theorem exMel_ok : exMel.OK where
  mel y sr kw s h := by
    obtain rfl := Except.ok.inj h
    simp
  logamplitude s := rfl
  dct n m _ := ⟨_, rfl, by simp⟩
  delta s k n := ⟨rfl, fun h => h⟩
  vq s c n m hs hc hws hwc := by
    simp only [exMel]
    rw [wide_head hs hws, wide_head hc hwc]
    constructor
    · intro h
      rw [if_pos h]
      refine ⟨_, rfl, by simp, ?_⟩
      intro x hx
      rw [List.eq_of_mem_replicate hx]
      exact List.length_pos_iff.2 hc
    · intro h
      rw [if_neg h]

/-- Codebooks of the example: the first vectors. -/
noncomputable def exBook (x : List (List ℝ)) (k : ℕ) : Py (List (List ℝ)) :=
  if x.take k = [] then .error .valueError else .ok (x.take k)

theorem exBook_ok : BookOK exBook := by
  intro x k c h
  unfold exBook at h
  split_ifs at h with h0
  obtain rfl := Except.ok.inj h
  exact ⟨h0, fun n hw y hy => hw y (List.mem_of_mem_take hy)⟩

/-- Codebooks built by default do not fit features with 20 coefficients. -/
example : ∃ cbs, exMel.codebooks (fun _ => .ok (16000, 7)) exBook MFCC_PARAMS ["a".toList, "b".toList] [2, 2, 3] [] =
      (MFCC_PARAMS, .ok cbs) ∧
    (∃ v, exMel.hac MFCC_PARAMS 5 8000 cbs [5, 2] [("n_fft".toList, .int 320)] = (MFCC_PARAMS, .ok v) ∧ v.length = 34) ∧
    exMel.hac MFCC_PARAMS 5 8000 cbs [5, 2] [("n_mfcc".toList, .int 20)] = (MFCC_PARAMS, .error .valueError) := by
  have hc : ∃ cbs, exMel.codebooks (fun _ => .ok (16000, 7)) exBook MFCC_PARAMS ["a".toList, "b".toList] [2, 2, 3] [] =
      (MFCC_PARAMS, .ok cbs) ∧ cbs.map List.length = [2, 2, 3] := by
    refine ⟨_, rfl, rfl⟩
  obtain ⟨cbs, hc, hlen⟩ := hc
  have h1 := (C185_same exMel exMel_ok (fun _ => .ok (16000, 7)) exBook exBook_ok ["a".toList, "b".toList] [2, 2, 3] []
    (by simp [dictKeys]) 13 (Or.inr ⟨rfl, rfl⟩) (by decide) MFCC_PARAMS cbs hc [("n_fft".toList, .int 320)] (by decide) (by decide)
    13 (Or.inr ⟨by decide, rfl⟩) (by decide) 5 8000 _ rfl [5, 2] (by decide) (by decide)).1 rfl
  have h2 := (C185_same exMel exMel_ok (fun _ => .ok (16000, 7)) exBook exBook_ok ["a".toList, "b".toList] [2, 2, 3] []
    (by simp [dictKeys]) 13 (Or.inr ⟨rfl, rfl⟩) (by decide) MFCC_PARAMS cbs hc [("n_mfcc".toList, .int 20)] (by decide) (by decide)
    20 (Or.inl (by decide)) (by decide) 5 8000 _ rfl [5, 2] (by decide) (by decide)).2 (by decide)
  obtain ⟨v, hv, a, b, c, rfl, hl⟩ := h1
  refine ⟨_, hc, ⟨v, hv, ?_⟩, h2⟩
  simp only [List.map_cons, List.map_nil, List.cons.injEq, and_true] at hlen
  rw [hl, hlen.1, hlen.2.1, hlen.2.2]
  rfl

/-- The rate is the one of the file. -/
example : exMel.wav2hac (fun _ => .ok (16000, 7)) MFCC_PARAMS "a".toList [] [5, 2] [("sr".toList, .int 8000)] =
    (MFCC_PARAMS, .error .typeError) :=
  (C185_reserved exMel (fun _ => .ok (16000, 7)) exBook "a".toList [] 16000 7 rfl [("sr".toList, .int 8000)] (by decide)
    ⟨"sr".toList, by decide, by decide⟩ [] [5, 2] []).1

/-- The coefficients of a direct call, twenty by default. -/
example : ∃ m, exMel.mfcc 5 8000 [("n_fft".toList, .int 320)] = .ok m ∧ ∀ c ∈ m, c.length = 20 := by
  have h : ∃ m, exMel.mfcc 5 8000 [("n_fft".toList, .int 320)] = .ok m := ⟨_, rfl⟩
  obtain ⟨m, hm⟩ := h
  refine ⟨m, hm, ?_⟩
  obtain ⟨s, d, _, hd, hf⟩ := (C185_direct exMel 5 8000 [("n_fft".toList, .int 320)] (by decide) m).1 hm
  have hdl : d.length = 20 := by
    have := Except.ok.inj hd
    rw [← this]
    rfl
  intro c hc
  obtain ⟨i, hi, rfl⟩ := List.mem_iff_getElem.1 hc
  rw [← hdl]
  exact ((List.forall₂_iff_get.1 hf).2 i (by rw [(List.forall₂_iff_get.1 hf).1]; exact hi) hi).length_eq.symm

end Verif.Features
