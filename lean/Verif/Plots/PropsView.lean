import Verif.Plots.PropsDraw

/-!
# Properties C128-C130: range of the plots, sliders, plots of a sentence
-/

namespace Verif.Plots

open Verif Verif.Window

variable {X R : Type}

/-! ### C128 -/

theorem getSub_out {α β : Type} (c : Concat α β) (rs re s e : ℚ) (hs : c.start = .ok rs)
    (he : c.stop = .ok re) (h : s < rs ∨ re < s ∨ e < rs ∨ re < e) :
    c.getSub s e = .error .timeOutOfBound := by
  have key : ∀ t, (t < rs ∨ re < t) → c.fileIndex t = .error .timeOutOfBound := by
    intro t ht
    unfold Concat.fileIndex checkTime
    rw [hs, he]
    by_cases h1 : t < rs
    · simp [bind, Except.bind, h1]
    · have h2 : re < t := by tauto
      simp [bind, Except.bind, h1, h2]
  unfold Concat.getSub
  by_cases h1 : s < rs ∨ re < s
  · rw [key s h1]; rfl
  · have h2 : e < rs ∨ re < e := by tauto
    have h3 : ∃ i, c.fileIndex s = .ok i := by
      push Not at h1
      unfold Concat.fileIndex checkTime
      rw [hs, he]
      simp [bind, Except.bind, not_lt.2 h1.1, not_lt.2 h1.2, pure, Except.pure]
    obtain ⟨i, hi⟩ := h3
    rw [hi, key e h2]
    rfl

/-- **C128.** Times which the records do not cover cannot be shown: `draw` raises `TimeOutOfBound`. -/
theorem C128_out (records : Concat Unit R) (sliding : List (BasicWin Unit)) (rows : List (List ℚ))
    (labels : Arg X) (rc : Dict Str Rc) (isTest : Option (R → Bool)) (p : Score X R)
    (hnew : Score.new records sliding (.array rows) labels (some rc) isTest = .ok p)
    (hrows : ∀ r ∈ rows, r ≠ []) (rs re s e : ℚ) (hs : records.start = .ok rs)
    (he : records.stop = .ok re) (h : s < rs ∨ re < s ∨ e < rs ∨ re < e) :
    ({ p with current := ⟨s, e, ()⟩ } : Score X R).draw = .error .timeOutOfBound := by
  obtain ⟨hlen, hrec, hsl, -, hsim, hkeys⟩ := new_fields hnew
  set q : Score X R := { p with current := ⟨s, e, ()⟩ } with hq
  have hk1 : "use_relative_time".toList ∈ dictKeys q.rc := hkeys _ (by decide)
  obtain ⟨shown, hshown⟩ : ∃ l, l = (q.sliding.zip rows).filter fun x =>
      decide (q.current.start ≤ meanTime x.1 ∧ meanTime x.1 ≤ q.current.stop) := ⟨_, rfl⟩
  obtain ⟨hf1, hf2⟩ := drawn_eq q rows (by rw [show q.sliding = sliding from hsl]; exact hlen)
    (by rw [show q.sliding = sliding from hsl]; exact hsim) shown hshown
  have hnon : ∀ x ∈ shown, x.2 ≠ [] := by
    intro x hx
    rw [hshown, List.mem_filter] at hx
    exact hrows _ (List.of_mem_zip hx.1).2
  obtain ⟨off, hoff⟩ : ∃ o, o = offset q.rc q.current.start := ⟨_, rfl⟩
  have ht : (shown.map Prod.fst).mapM (fun w : BasicWin Unit => q.relative "mean".toList w.start w.stop) =
      .ok ((shown.map Prod.fst).map fun w => 1 / 2 * (w.stop + w.start) - off) := by
    apply mapM_ok
    intro w _
    rw [relative_mean q hk1, hoff]
  have hb : (shown.map Prod.fst).mapM q.boundary =
      .ok ((shown.map Prod.fst).map fun w => (max w.start s - off, min w.stop e - off)) := by
    apply mapM_ok
    intro w _
    rw [boundary_eq q hk1, hoff]
  have hz : ((shown.map Prod.fst).map fun w : BasicWin Unit => (max w.start s - off, min w.stop e - off)).zip
      ((shown.map fun x => (⟨x.1.start, x.1.stop, x.2⟩ : BasicWin (List ℚ))).map BasicWin.obj) =
      shown.map fun x => ((max x.1.start s - off, min x.1.stop e - off), x.2) := by
    rw [List.map_map, List.map_map, List.zip_map']
    rfl
  obtain ⟨segs, hseg1, -⟩ := mapM_segment
    (shown.map fun x => ((max x.1.start s - off, min x.1.stop e - off), x.2)) (by
      intro x hx
      obtain ⟨y, hy, rfl⟩ := List.mem_map.1 hx
      exact hnon y hy)
  have hsubs : q.subwindows q.records = .error .timeOutOfBound := by
    unfold Score.subwindows
    rw [show q.records = records from hrec,
      show records.getSub q.current.start q.current.stop = .error .timeOutOfBound from
        getSub_out records rs re s e hs he h]
    rfl
  unfold Score.draw
  rw [hf1]
  simp only [bind, Except.bind]
  rw [ht]
  simp only []
  rw [hb]
  simp only []
  rw [hf2]
  simp only []
  rw [hz, hseg1]
  simp only []
  rw [if_neg (by simp), hsubs]

/-- **C128.** `InteractivePlot` shows the first 20 seconds: it can be built exactly when the records
start at 0 or before and last 20 seconds or more (given the similarities before the labels). -/
theorem C128_interactive (records : Concat Unit R) (sliding : List (BasicWin Unit))
    (rows : List (List ℚ)) (labels : Arg X) (rc : Dict Str Rc) (isTest : Option (R → Bool))
    (hlen : sliding.length ≤ rows.length) (hrows : ∀ r ∈ rows, r ≠ []) (hal : Aligned records.windows)
    (hbasic : ∀ w ∈ records.windows, ∃ x, w = .basic x) (hd : ∀ w ∈ records.windows, w.start ≤ w.stop)
    (rs re : ℚ) (hs : records.start = .ok rs) (he : records.stop = .ok re) :
    (rs ≤ 0 ∧ 20 ≤ re → ∃ p d, Interactive.new records sliding (.array rows) labels isTest (some rc) =
      .ok (p, d) ∧ p.start = 0 ∧ p.width = 15 ∧ p.score.current.start = 0 ∧ p.score.current.stop = 20) ∧
    (0 < rs ∨ re < 20 → Interactive.new records sliding (.array rows) labels isTest (some rc) =
      .error .timeOutOfBound) := by
  obtain ⟨p, hp, hc1, hc2, -⟩ := (C126_new records sliding rows labels rc isTest).2 hlen
  have hcur : ({ p with current := ⟨0, 20, ()⟩ } : Score X R) = p := by
    have : p.current = ⟨0, 20, ()⟩ := by rw [← hc1, ← hc2]
    rw [← this]
  constructor
  · intro h
    obtain ⟨d, -, -, -, -, hdraw, -⟩ := C127_draw records sliding rows labels rc isTest p hp hrows hal
      hbasic hd rs re 0 20 hs he (by norm_num) h.1 h.2 _ rfl _ rfl
    rw [hcur] at hdraw
    refine ⟨⟨p, 0, 15⟩, d, ?_, rfl, rfl, hc1, hc2⟩
    unfold Interactive.new
    rw [hp]
    simp only [bind, Except.bind]
    rw [hdraw]
    simp only []
    rw [(new_fields hp).2.1, he]
    rfl
  · intro h
    have hdraw := C128_out records sliding rows labels rc isTest p hp hrows rs re 0 20 hs he (by tauto)
    rw [hcur] at hdraw
    unfold Interactive.new
    rw [hp]
    simp only [bind, Except.bind]
    rw [hdraw]

/-! ### C129 -/

/-- What a person can do with the plot. -/
inductive Event
  | start (v : ℚ)
  | width (v : ℚ)
  | key (k : Str)

/-- The plot after an event, and whether the event raised an exception. -/
def Interactive.react (b1 b2 : ℚ → ℚ) (p : Interactive X R) : Event → Interactive X R × Py Unit
  | .start v => ((p.setStart b1 v).1, (p.setStart b1 v).2.map fun _ => ())
  | .width v => ((p.setWidth b2 v).1, (p.setWidth b2 v).2.map fun _ => ())
  | .key k => ((p.onKey b1 k).1, (p.onKey b1 k).2.map fun _ => ())

theorem onKey_state (bound : ℚ → ℚ) (p : Interactive X R) (key : Str) :
    (p.onKey bound key).1 =
      (if key = "right".toList then
        (Interactive.update { p with start := bound (p.start + 1 / 2 * p.width) }).1
      else if key = "left".toList then
        (Interactive.update { p with start := bound (p.start - 1 / 2 * p.width) }).1
      else p) := by
  have h1 : p.start + 1 * (1 / 2) * p.width = p.start + 1 / 2 * p.width := by ring
  have h2 : p.start + -1 * (1 / 2) * p.width = p.start - 1 / 2 * p.width := by ring
  have key' : ∀ v, (match p.setStart bound v with
      | (p', .error e) => ((p', .error e) : Interactive X R × Py (Option (Drawing R)))
      | (p', .ok _) => (p'.update.1, p'.update.2.map some)).1 =
      (Interactive.update { p with start := bound v }).1 := by
    intro v
    rcases h : p.setStart bound v with ⟨p', e | d⟩
    · simp only []
      unfold Interactive.setStart at h
      rw [h]
    · simp only []
      unfold Interactive.setStart at h
      rw [h]
      have : p' = (Interactive.update { p with start := bound v }).1 := by rw [h]
      rw [this]
      rfl
  unfold Interactive.onKey
  split
  · rw [← h1]; exact key' _
  · split
    · rw [← h2]; exact key' _
    · rfl

/-- **C129.** Whatever is done with the sliders and keys, windows, similarities, records and options
stay the same, and, unless nothing happened, what is shown is what the sliders tell. -/
theorem C129_reacts (b1 b2 : ℚ → ℚ) (p : Interactive X R) (evs : List Event) :
    ∀ q, q = evs.foldl (fun q e => (q.react b1 b2 e).1) p →
      q.score.records = p.score.records ∧ q.score.sliding = p.score.sliding ∧
      q.score.similarity = p.score.similarity ∧ q.score.rc = p.score.rc ∧
      q.score.isTest = p.score.isTest ∧
      (q = p ∨ (q.score.current.start = q.start ∧ q.score.current.stop = q.start + q.width)) := by
  induction evs using List.reverseRecOn with
  | nil => rintro q rfl; exact ⟨rfl, rfl, rfl, rfl, rfl, Or.inl rfl⟩
  | append_singleton evs e ih =>
    rintro q rfl
    rw [List.foldl_append]
    obtain ⟨i1, i2, i3, i4, i5, i6⟩ := ih _ rfl
    set q := evs.foldl (fun q e => (q.react b1 b2 e).1) p
    have upd : ∀ r : Interactive X R, r.score = q.score →
        r.update.1.score.records = p.score.records ∧ r.update.1.score.sliding = p.score.sliding ∧
        r.update.1.score.similarity = p.score.similarity ∧ r.update.1.score.rc = p.score.rc ∧
        r.update.1.score.isTest = p.score.isTest ∧
        (r.update.1 = p ∨ (r.update.1.score.current.start = r.update.1.start ∧
          r.update.1.score.current.stop = r.update.1.start + r.update.1.width)) := by
      intro r hr
      unfold Interactive.update
      simp only [hr]
      exact ⟨i1, i2, i3, i4, i5, Or.inr ⟨trivial, trivial⟩⟩
    cases e with
    | start v => exact upd { q with start := b1 v } rfl
    | width v => exact upd { q with width := b2 v } rfl
    | key k =>
      simp only [List.foldl_cons, List.foldl_nil, Interactive.react]
      rw [onKey_state]
      split
      · exact upd { q with start := b1 (q.start + 1 / 2 * q.width) } rfl
      · split
        · exact upd { q with start := b1 (q.start - 1 / 2 * q.width) } rfl
        · exact ⟨i1, i2, i3, i4, i5, i6⟩

/-- **C129.** The keys move the view by half its width; without limits, the left key undoes the right
key; other keys do nothing. -/
theorem C129_keys (bound : ℚ → ℚ) (p : Interactive X R) (k : Str) :
    ((p.onKey bound "right".toList).1.start = bound (p.start + p.width / 2) ∧
      (p.onKey bound "left".toList).1.start = bound (p.start - p.width / 2) ∧
      (p.onKey bound k).1.width = p.width) ∧
    (k ≠ "right".toList → k ≠ "left".toList → p.onKey bound k = (p, .ok none)) ∧
    (p.score.current.start = p.start → p.score.current.stop = p.start + p.width →
      ((p.onKey id "right".toList).1.onKey id "left".toList).1 = p) := by
  have e1 : p.start + 1 / 2 * p.width = p.start + p.width / 2 := by ring
  have e2 : p.start - 1 / 2 * p.width = p.start - p.width / 2 := by ring
  refine ⟨⟨?_, ?_, ?_⟩, ?_, ?_⟩
  · rw [onKey_state, if_pos rfl, e1]; rfl
  · rw [onKey_state, if_neg (by decide), if_pos rfl, e2]; rfl
  · rw [onKey_state]
    split
    · rfl
    · split <;> rfl
  · intro h1 h2
    unfold Interactive.onKey
    rw [if_neg h1, if_neg h2]
  · intro h1 h2
    rw [onKey_state, if_neg (by decide), if_pos rfl, onKey_state, if_pos rfl]
    obtain ⟨score, start, width⟩ := p
    obtain ⟨⟨cs, ce, u⟩, recs, sl, si, la, rc, it⟩ := score
    simp only at h1 h2
    subst h1 h2
    unfold Interactive.update
    simp only [id]
    have e3 : cs + 1 / 2 * width - 1 / 2 * width = cs := by ring
    rw [e3]

/-- **C129.** A view which goes beyond the records is an exception, after the plot has moved. -/
theorem C129_beyond (records : Concat Unit R) (sliding : List (BasicWin Unit)) (rows : List (List ℚ))
    (labels : Arg X) (rc : Dict Str Rc) (isTest : Option (R → Bool)) (s : Score X R)
    (hnew : Score.new records sliding (.array rows) labels (some rc) isTest = .ok s)
    (hrows : ∀ r ∈ rows, r ≠ []) (rs re : ℚ) (hs : records.start = .ok rs)
    (he : records.stop = .ok re) (bound : ℚ → ℚ) (p : Interactive X R) (cur : BasicWin Unit)
    (hp : p.score = { s with current := cur })
    (hout : re < bound (p.start + p.width / 2) + p.width) :
    (p.onKey bound "right".toList).2 = .error .timeOutOfBound ∧
    (p.onKey bound "right".toList).1.start = bound (p.start + p.width / 2) := by
  refine ⟨?_, ((C129_keys bound p "right".toList).1).1⟩
  have e1 : p.start + 1 * (1 / 2) * p.width = p.start + p.width / 2 := by ring
  have hdraw := C128_out records sliding rows labels rc isTest s hnew hrows rs re
    (bound (p.start + p.width / 2)) (bound (p.start + p.width / 2) + p.width) hs he (by tauto)
  unfold Interactive.onKey
  rw [if_pos rfl]
  simp only []
  rw [e1]
  unfold Interactive.setStart Interactive.update
  simp only [hp]
  rw [hdraw]

/-- **C129.** A move of a slider, or a key which moves the view, is an exception exactly when what the sliders
tell afterwards goes beyond the records; the plot has moved in all cases (see `C129_reacts`). -/
theorem C129_events (records : Concat Unit R) (sliding : List (BasicWin Unit)) (rows : List (List ℚ))
    (labels : Arg X) (rc : Dict Str Rc) (isTest : Option (R → Bool)) (s : Score X R)
    (hnew : Score.new records sliding (.array rows) labels (some rc) isTest = .ok s)
    (hrows : ∀ r ∈ rows, r ≠ []) (hal : Aligned records.windows)
    (hbasic : ∀ w ∈ records.windows, ∃ x, w = .basic x) (hd : ∀ w ∈ records.windows, w.start ≤ w.stop)
    (rs re : ℚ) (hs : records.start = .ok rs) (he : records.stop = .ok re) (b1 b2 : ℚ → ℚ)
    (p : Interactive X R) (cur : BasicWin Unit) (hp : p.score = { s with current := cur }) (ev : Event)
    (hev : ∀ k, ev = .key k → k = "right".toList ∨ k = "left".toList)
    (hw : 0 ≤ (p.react b1 b2 ev).1.width) :
    ((rs ≤ (p.react b1 b2 ev).1.start ∧ (p.react b1 b2 ev).1.start + (p.react b1 b2 ev).1.width ≤ re) →
      (p.react b1 b2 ev).2 = .ok ()) ∧
    (¬ (rs ≤ (p.react b1 b2 ev).1.start ∧ (p.react b1 b2 ev).1.start + (p.react b1 b2 ev).1.width ≤ re) →
      (p.react b1 b2 ev).2 = .error .timeOutOfBound) := by
  have key : ∀ q : Interactive X R, q.score = { s with current := cur } → 0 ≤ q.width →
      ((rs ≤ q.start ∧ q.start + q.width ≤ re) → ∃ d, q.update.2 = .ok d) ∧
      (¬ (rs ≤ q.start ∧ q.start + q.width ≤ re) → q.update.2 = .error .timeOutOfBound) := by
    intro q hq hqw
    unfold Interactive.update
    simp only [hq]
    refine ⟨fun h => ?_, fun h => ?_⟩
    · obtain ⟨d, -, -, -, -, hdraw, -⟩ := C127_draw records sliding rows labels rc isTest s hnew hrows hal
        hbasic hd rs re q.start (q.start + q.width) hs he (by linarith) h.1 h.2 _ rfl _ rfl
      exact ⟨d, hdraw⟩
    · refine C128_out records sliding rows labels rc isTest s hnew hrows rs re q.start (q.start + q.width)
        hs he ?_
      by_contra hc
      push Not at hc
      exact h ⟨hc.1, hc.2.2.2⟩
  -- the two kinds of events
  have slide : ∀ q : Interactive X R, q.score = p.score → 0 ≤ q.update.1.width →
      ((rs ≤ q.update.1.start ∧ q.update.1.start + q.update.1.width ≤ re) →
        (q.update.2.map fun _ => ()) = .ok ()) ∧
      (¬ (rs ≤ q.update.1.start ∧ q.update.1.start + q.update.1.width ≤ re) →
        (q.update.2.map fun _ => ()) = .error .timeOutOfBound) := by
    intro q hq hqw
    obtain ⟨k1, k2⟩ := key q (hq.trans hp) hqw
    refine ⟨fun h => ?_, fun h => ?_⟩
    · obtain ⟨d, hd⟩ := k1 h
      rw [hd]; rfl
    · rw [k2 h]; rfl
  have press : ∀ (dir : ℚ) (k : Str), p.onKey b1 k =
      (match p.setStart b1 (p.start + dir * (1 / 2) * p.width) with
      | (p', .error e) => (p', .error e)
      | (p', .ok _) => (p'.update.1, p'.update.2.map some)) → 0 ≤ (p.onKey b1 k).1.width →
      ((rs ≤ (p.onKey b1 k).1.start ∧ (p.onKey b1 k).1.start + (p.onKey b1 k).1.width ≤ re) →
        ((p.onKey b1 k).2.map fun _ => ()) = .ok ()) ∧
      (¬ (rs ≤ (p.onKey b1 k).1.start ∧ (p.onKey b1 k).1.start + (p.onKey b1 k).1.width ≤ re) →
        ((p.onKey b1 k).2.map fun _ => ()) = .error .timeOutOfBound) := by
    intro dir k hk hkw
    have hst : (p.onKey b1 k).1.start = b1 (p.start + dir * (1 / 2) * p.width) ∧
        (p.onKey b1 k).1.width = p.width := by
      rw [hk]
      unfold Interactive.setStart Interactive.update
      simp only
      split
      · rename_i h
        rw [Prod.mk.injEq] at h
        rw [← h.1]
        exact ⟨rfl, rfl⟩
      · rename_i h
        rw [Prod.mk.injEq] at h
        rw [← h.1]
        exact ⟨rfl, rfl⟩
    rw [hst.1, hst.2]
    rw [hst.2] at hkw
    obtain ⟨k1, k2⟩ := key { p with start := b1 (p.start + dir * (1 / 2) * p.width) } hp hkw
    refine ⟨fun h => ?_, fun h => ?_⟩
    · obtain ⟨d, hd⟩ := k1 h
      rw [hk]
      have e1 : p.setStart b1 (p.start + dir * (1 / 2) * p.width) =
          ((Interactive.update { p with start := b1 (p.start + dir * (1 / 2) * p.width) }).1, .ok d) :=
        Prod.ext rfl hd
      rw [e1]
      simp only
      have e2 : (Interactive.update
          (Interactive.update { p with start := b1 (p.start + dir * (1 / 2) * p.width) }).1).2 = .ok d := hd
      rw [e2]
      rfl
    · rw [hk]
      have e1 : p.setStart b1 (p.start + dir * (1 / 2) * p.width) =
          ((Interactive.update { p with start := b1 (p.start + dir * (1 / 2) * p.width) }).1,
            .error .timeOutOfBound) := Prod.ext rfl (k2 h)
      rw [e1]
      rfl
  cases ev with
  | start v => exact slide { p with start := b1 v } rfl hw
  | width v => exact slide { p with width := b2 v } rfl hw
  | key k =>
    rcases hev k rfl with rfl | rfl
    · exact press 1 _ (by unfold Interactive.onKey; rw [if_pos rfl]; rfl) hw
    · exact press (-1) _ (by unfold Interactive.onKey; rw [if_neg (by decide), if_pos rfl]; rfl) hw

/-! ### C130 -/

/-- **C130.** With the similarities before the labels, `plot_one_sentence` succeeds for every record
window; with the default options times are relative to the beginning of the record, no sentence and no
line is drawn, and the curves have the similarities of exactly the windows whose middle is in the
record, from 0 to its duration. -/
theorem C130_sentence (recordWin : BasicWin R) (sliding : List (BasicWin Unit)) (rows : List (List ℚ))
    (labels : Arg X) (rc : Dict Str Rc) (hlen : sliding.length ≤ rows.length)
    (hrows : ∀ r ∈ rows, r ≠ []) (hw : recordWin.start ≤ recordWin.stop)
    (hrc : (dictKeys rc).Nodup) :
    ∃ d, plotOneSentence recordWin sliding (.array rows) labels (some rc) = .ok (recordWin.obj, d) ∧
      ("use_relative_time".toList ∉ dictKeys rc →
        d.xbound = (0, recordWin.stop - recordWin.start) ∧
        (∀ t ∈ d.times, 0 ≤ t ∧ t ≤ recordWin.stop - recordWin.start) ∧
        ∀ (k : ℕ) (t : ℚ), d.times[k]? = some t → ∃ (i : ℕ) (w : BasicWin Unit) (r : List ℚ),
          sliding[i]? = some w ∧ rows[i]? = some r ∧ d.curves[k]? = some r ∧
          t = (w.start + w.stop) / 2 - recordWin.start) ∧
      (∀ (i : ℕ) (w : BasicWin Unit) (r : List ℚ), sliding[i]? = some w → rows[i]? = some r →
        recordWin.start ≤ (w.start + w.stop) / 2 → (w.start + w.stop) / 2 ≤ recordWin.stop →
        r ∈ d.curves) ∧
      d.curves.length = d.times.length ∧
      ("print_sentences".toList ∉ dictKeys rc → d.texts = []) ∧
      ("draw_sentence_boundaries".toList ∉ dictKeys rc → d.lines = []) := by
  have hc : Concat.init ([.basic recordWin] : List (Win Unit R)) = .ok ⟨[.basic recordWin]⟩ :=
    Concat.init_ok (by simp) (by simp [Consecutive])
  set rc' : Dict Str Rc := rc.foldl (fun d p => dictSet d p.1 p.2) SENTENCE_RC with hrc'
  obtain ⟨p, hp, -, -, -, -, -, -, -, -, hopt⟩ :=
    (C126_new (⟨[.basic recordWin]⟩ : Concat Unit R) sliding rows labels rc' none).2 hlen
  have hkeys : (dictKeys rc').Nodup := by
    have : ∀ (o d : Dict Str Rc), (dictKeys d).Nodup →
        (dictKeys (o.foldl (fun d p => dictSet d p.1 p.2) d)).Nodup := by
      intro o
      induction o with
      | nil => exact fun d h => h
      | cons a o ih =>
        intro d h
        rw [List.foldl_cons]
        apply ih
        rw [dictKeys_set]
        split
        · exact h
        · rename_i hn
          rw [List.nodup_append]
          exact ⟨h, by simp, by simp only [List.mem_singleton]; rintro x hx y rfl rfl; exact hn hx⟩
    exact this rc SENTENCE_RC (by decide)
  have hval : ∀ (k : Str) (v : Rc), k ∉ dictKeys rc → dictGet? SENTENCE_RC k = some v →
      dictGet? p.rc k = some v := by
    intro k v hk hv
    rw [hopt hkeys, hrc', dictGet?_update SENTENCE_RC rc k hrc, hv]
    have : dictGet? rc k = none := by
      by_contra hc
      exact hk ((dictGet?_isSome rc k).1 (Option.isSome_iff_ne_none.2 hc))
    rw [this]
    rfl
  obtain ⟨d, pre, kept, post, seen, hdraw, ht, hcv, -, -, -, -, -, htx, hln, hxb⟩ :=
    C127_draw (⟨[.basic recordWin]⟩ : Concat Unit R) sliding rows labels rc' none p hp hrows
      (by simp [Aligned]) (by simp) (by simpa using (show (Win.basic recordWin : Win Unit R).start ≤ (Win.basic recordWin : Win Unit R).stop from hw)) recordWin.start recordWin.stop recordWin.start
      recordWin.stop rfl rfl hw le_rfl le_rfl _ rfl _ rfl
  refine ⟨d, ?_, ?_, ?_, ?_, ?_, ?_⟩
  · unfold plotOneSentence update
    simp only [bind, Except.bind, hc]
    rw [hp]
    simp only []
    rw [hdraw]
    rfl
  · intro hrel
    have hoff : offset p.rc recordWin.start = recordWin.start := by
      unfold offset
      rw [hval _ (.flag true) hrel (by decide)]
      rfl
    rw [hoff] at ht hxb
    refine ⟨by rw [hxb, sub_self], ?_, ?_⟩
    · intro t htm
      rw [ht] at htm
      obtain ⟨x, hx, rfl⟩ := List.mem_map.1 htm
      rw [List.mem_filter] at hx
      have := of_decide_eq_true hx.2
      constructor <;> linarith [this.1, this.2]
    · intro k t hk
      rw [ht, List.getElem?_map, Option.map_eq_some_iff] at hk
      obtain ⟨x, hx, rfl⟩ := hk
      have hmem := List.mem_of_getElem? hx
      rw [List.mem_filter] at hmem
      obtain ⟨i, hi⟩ := List.getElem?_of_mem hmem.1
      rw [List.getElem?_zip_eq_some] at hi
      refine ⟨i, x.1, x.2, hi.1, hi.2, ?_, rfl⟩
      rw [hcv, List.getElem?_map, hx]
      rfl
  · intro i w r hi hr h1 h2
    rw [hcv]
    refine List.mem_map.2 ⟨(w, r), ?_, rfl⟩
    rw [List.mem_filter]
    exact ⟨List.mem_of_getElem? (List.getElem?_zip_eq_some.2 (⟨hi, hr⟩ : _ ∧ _)),
      decide_eq_true ⟨h1, h2⟩⟩
  · rw [hcv, ht, List.length_map, List.length_map]
  · intro h
    rw [htx]
    unfold optionOn
    rw [hval _ (.flag false) h (by decide)]
    rfl
  · intro h
    rw [hln]
    unfold optionOn
    rw [hval _ (.flag false) h (by decide)]
    rfl

end Verif.Plots
