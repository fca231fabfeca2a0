import Verif.Logger.Model
import Mathlib.Data.Nat.Digits.Lemmas
import Mathlib.Data.List.Nodup

/-!
# Lemmas on dictionaries, keys and archives (`multimodal/lib/logger.py`)
-/

namespace Verif

theorem dictSet_fresh {K V : Type*} [DecidableEq K] (d : Dict K V) (k : K) (v : V)
    (h : k ∉ dictKeys d) : dictSet d k v = d ++ [(k, v)] := by
  induction d with
  | nil => rfl
  | cons p d ih =>
    unfold dictKeys at h
    rw [List.map_cons, List.mem_cons, not_or] at h
    unfold dictSet
    rw [if_neg (fun e => h.1 e.symm), ih h.2]
    rfl

theorem foldl_dictSet_fresh {K V : Type*} [DecidableEq K] (ps : List (K × V)) :
    ∀ d : Dict K V, (dictKeys (d ++ ps)).Nodup →
      ps.foldl (fun d p => dictSet d p.1 p.2) d = d ++ ps := by
  induction ps with
  | nil => intro d _; simp
  | cons p ps ih =>
    intro d h
    have hp : p.1 ∉ dictKeys d := by
      unfold dictKeys at h ⊢
      rw [List.map_append, List.map_cons] at h
      intro hc
      exact (List.disjoint_of_nodup_append h) hc List.mem_cons_self
    rw [List.foldl_cons, dictSet_fresh d p.1 p.2 hp, ih]
    · simp
    · simpa using h

theorem dictGet?_append {K V : Type*} [DecidableEq K] (d e : Dict K V) (k : K) :
    dictGet? (d ++ e) k = (dictGet? d k).or (dictGet? e k) := by
  unfold dictGet?
  rw [List.find?_append, Option.map_or]

theorem dictGet?_foldl_set {K V : Type*} [DecidableEq K] (ps : List (K × V)) (k : K) :
    ∀ d : Dict K V, (dictKeys ps).Nodup →
      dictGet? (ps.foldl (fun d p => dictSet d p.1 p.2) d) k = (dictGet? ps k).or (dictGet? d k) := by
  induction ps with
  | nil => intro d _; rfl
  | cons p ps ih =>
    intro d h
    unfold dictKeys at h
    rw [List.map_cons, List.nodup_cons] at h
    rw [List.foldl_cons, ih _ h.2, dictGet?_set]
    by_cases hk : p.1 = k
    · have h1 : dictGet? ps k = none := by
        rw [← Option.not_isSome_iff_eq_none, dictGet?_isSome]
        exact hk ▸ h.1
      have h2 : dictGet? (p :: ps) k = some p.2 := by
        unfold dictGet?; simp [List.find?, hk]
      rw [h1, h2, if_pos hk]; rfl
    · have h2 : dictGet? (p :: ps) k = dictGet? ps k := by
        unfold dictGet?; simp [List.find?, hk]
      rw [h2, if_neg hk]

theorem dictGet?_filterMap {K V W : Type*} [DecidableEq K] (f : V → Option W) (d : Dict K V) (k : K)
    (h : (dictKeys d).Nodup) :
    dictGet? (d.filterMap fun kv => (f kv.2).map fun w => (kv.1, w)) k = (dictGet? d k).bind f := by
  induction d with
  | nil => rfl
  | cons p d ih =>
    unfold dictKeys at h
    rw [List.map_cons, List.nodup_cons] at h
    rw [List.filterMap_cons]
    by_cases hk : p.1 = k
    · have h1 : dictGet? d k = none := by
        rw [← Option.not_isSome_iff_eq_none, dictGet?_isSome]
        exact hk ▸ h.1
      have h2 : dictGet? (p :: d) k = some p.2 := by
        unfold dictGet?; simp [List.find?, hk]
      rw [h2]
      cases hf : f p.2 with
      | none =>
        simp only [Option.map_none]
        rw [ih h.2, h1]
        simp [hf]
      | some w =>
        simp only [Option.map_some]
        unfold dictGet?
        simp [List.find?, hk, hf]
    · have h2 : dictGet? (p :: d) k = dictGet? d k := by
        unfold dictGet?; simp [List.find?, hk]
      rw [h2, ← ih h.2]
      cases hf : f p.2 with
      | none => rfl
      | some w =>
        simp only [Option.map_some]
        unfold dictGet?
        simp [List.find?, hk]

theorem dictKeys_filterMap_sublist {K V W : Type*} (f : V → Option W) (d : Dict K V) :
    (dictKeys (d.filterMap fun kv => (f kv.2).map fun w => (kv.1, w))).Sublist (dictKeys d) := by
  induction d with
  | nil => exact List.Sublist.refl _
  | cons p d ih =>
    rw [List.filterMap_cons]
    cases hf : f p.2 with
    | none =>
      simp only [Option.map_none]
      exact List.Sublist.cons _ ih
    | some w =>
      simp only [Option.map_some]
      exact List.Sublist.cons_cons _ ih

end Verif

namespace Verif.Logger

variable {P A : Type}

/-- Plain value, if any. -/
def plain? : Val P A → Option P
  | .plain p => some p
  | .arr _ => none

/-- Array value, if any. -/
def arr? : Val P A → Option A
  | .plain _ => none
  | .arr a => some a

/-- The plain part of a dictionary. -/
def plains (d : Dict Key (Val P A)) : Dict Key P :=
  d.filterMap fun kv => (plain? kv.2).map fun w => (kv.1, w)

/-- The arrays of a dictionary. -/
def arrays (d : Dict Key (Val P A)) : Dict Key A :=
  d.filterMap fun kv => (arr? kv.2).map fun w => (kv.1, w)

theorem splitFirst_append (a b : Key) (h : '_' ∉ a) : splitFirst (a ++ '_' :: b) = some (a, b) := by
  induction a with
  | nil => simp [splitFirst]
  | cons c a ih =>
    rw [List.mem_cons, not_or] at h
    rw [List.cons_append]
    unfold splitFirst
    rw [if_neg (fun e => h.1 e.symm), ih h.2]
    rfl

theorem charToNat_ofNat (d : ℕ) (h : d < 10) : (Char.ofNat (48 + d)).toNat = 48 + d := by
  interval_cases d <;> rfl

theorem decStr_digits (i : ℕ) : ∀ c ∈ decStr i, 48 ≤ c.toNat ∧ c.toNat ≤ 57 := by
  intro c hc
  unfold decStr at hc
  split at hc
  · rw [List.mem_singleton] at hc; subst hc; decide
  · rw [List.mem_map] at hc
    obtain ⟨d, hd, rfl⟩ := hc
    have := Nat.digits_lt_base (b := 10) (by norm_num) (List.mem_reverse.1 hd)
    rw [charToNat_ofNat d this]
    omega

theorem decStr_ne_nil (i : ℕ) : decStr i ≠ [] := by
  unfold decStr
  split
  · simp
  · rename_i h
    intro hc
    rw [List.map_eq_nil_iff, List.reverse_eq_nil_iff, Nat.digits_eq_nil_iff_eq_zero] at hc
    exact h hc

theorem foldl_digits (l : List ℕ) (h : ∀ d ∈ l, d < 10) :
    ((l.reverse.map fun d => Char.ofNat (48 + d)).foldl (fun acc c => acc * 10 + (c.toNat - 48)) 0)
      = Nat.ofDigits 10 l := by
  induction l with
  | nil => rfl
  | cons d l ih =>
    rw [List.reverse_cons, List.map_append, List.foldl_append, ih (fun x hx => h x
      (List.mem_cons_of_mem _ hx)), Nat.ofDigits_cons]
    simp only [List.map_cons, List.map_nil, List.foldl_cons, List.foldl_nil]
    rw [charToNat_ofNat d (h d List.mem_cons_self)]
    simp only [Nat.add_sub_cancel_left]
    push_cast
    ring

theorem parseNat_decStr (i : ℕ) : parseNat (decStr i) = .ok i := by
  unfold parseNat
  rw [if_pos ⟨decStr_ne_nil i, by
    rw [List.all_eq_true]; intro c hc; simpa using decStr_digits i c hc⟩]
  congr 1
  unfold decStr
  split
  · rename_i h; subst h; rfl
  · rw [foldl_digits _ (fun d hd => Nat.digits_lt_base (by norm_num) hd), Nat.ofDigits_digits]

theorem underscore_notMem_decStr (i : ℕ) : '_' ∉ decStr i := by
  intro h
  have := decStr_digits i _ h
  revert this; decide

/-- The key of an array in the archive: global value or value of run `i`. -/
def enc : Option ℕ × Key → Key
  | (none, k) => "glob".toList ++ '_' :: k
  | (some i, k) => ("exp_".toList ++ decStr i) ++ '_' :: k

theorem splitFirst_glob (k : Key) : splitFirst (enc (none, k)) = some ("glob".toList, k) :=
  splitFirst_append _ _ (by decide)

theorem splitFirst_exp (i : ℕ) (k : Key) :
    splitFirst (enc (some i, k)) = some ("exp".toList, decStr i ++ '_' :: k) := by
  have : enc (some i, k) = "exp".toList ++ '_' :: (decStr i ++ '_' :: k) := by
    unfold enc; simp
  rw [this]
  exact splitFirst_append _ _ (by decide)

theorem splitFirst_num (i : ℕ) (k : Key) :
    splitFirst (decStr i ++ '_' :: k) = some (decStr i, k) :=
  splitFirst_append _ _ (underscore_notMem_decStr i)

theorem decStr_inj {i j : ℕ} (h : decStr i = decStr j) : i = j := by
  have h1 := parseNat_decStr i
  rw [h, parseNat_decStr j] at h1
  exact (Except.ok.inj h1).symm

theorem enc_inj : Function.Injective enc := by
  rintro ⟨a, k⟩ ⟨b, k'⟩ h
  have h1 := congrArg splitFirst h
  cases a with
  | none =>
    cases b with
    | none =>
      rw [splitFirst_glob, splitFirst_glob] at h1
      simp only [Option.some.injEq, Prod.mk.injEq, true_and] at h1
      rw [h1]
    | some j =>
      rw [splitFirst_glob, splitFirst_exp] at h1
      simp only [Option.some.injEq, Prod.mk.injEq] at h1
      exact absurd h1.1 (by decide)
  | some i =>
    cases b with
    | none =>
      rw [splitFirst_glob, splitFirst_exp] at h1
      simp only [Option.some.injEq, Prod.mk.injEq] at h1
      exact absurd h1.1 (by decide)
    | some j =>
      rw [splitFirst_exp, splitFirst_exp] at h1
      simp only [Option.some.injEq, Prod.mk.injEq, true_and] at h1
      have h2 := congrArg splitFirst h1
      rw [splitFirst_num, splitFirst_num] at h2
      simp only [Option.some.injEq, Prod.mk.injEq] at h2
      rw [decStr_inj h2.1, h2.2]

/-- Archive entries of one dictionary. -/
def tagged (t : Option ℕ) (d : Dict Key (Val P A)) : List ((Option ℕ × Key) × A) :=
  (arrays d).map fun kv => ((t, kv.1), kv.2)

/-- Archive entries of the runs, from run `n` on. -/
def taggedRuns (n : ℕ) : List (Dict Key (Val P A)) → List ((Option ℕ × Key) × A)
  | [] => []
  | e :: es => tagged (some n) e ++ taggedRuns (n + 1) es

/-- Archive entries with their encoded keys. -/
def encAll (l : List ((Option ℕ × Key) × A)) : Dict Key A := l.map fun x => (enc x.1, x.2)

theorem splitForSave_eq (orig : Dict Key (Val P A)) (t : Option ℕ) (pre : Key)
    (hpre : ∀ k, enc (t, k) = pre ++ '_' :: k) : ∀ (save : Dict Key P) (np : Dict Key A),
    splitForSave orig save np pre = ((plains orig).foldl (fun d p => dictSet d p.1 p.2) save,
      (encAll (tagged t orig)).foldl (fun d p => dictSet d p.1 p.2) np) := by
  unfold splitForSave
  induction orig with
  | nil => intro save np; rfl
  | cons kv orig ih =>
    intro save np
    obtain ⟨k, v⟩ := kv
    rw [List.foldl_cons]
    cases v with
    | plain p =>
      simp only []
      rw [ih]
      rfl
    | arr a =>
      simp only []
      rw [ih, ← hpre k]
      rfl

theorem mem_taggedRuns_tag {es : List (Dict Key (Val P A))} : ∀ {n : ℕ} {x : (Option ℕ × Key) × A},
    x ∈ taggedRuns n es → ∃ i, n ≤ i ∧ x.1.1 = some i := by
  induction es with
  | nil => intro n x h; cases h
  | cons e es ih =>
    intro n x h
    unfold taggedRuns at h
    rcases List.mem_append.1 h with h | h
    · unfold tagged at h
      obtain ⟨kv, _, rfl⟩ := List.mem_map.1 h
      exact ⟨n, le_rfl, rfl⟩
    · obtain ⟨i, hi, hx⟩ := ih h
      exact ⟨i, by omega, hx⟩

/-- The keys of a Python dictionary are distinct. -/
def DictOK {V : Type} (d : Dict Key V) : Prop := (dictKeys d).Nodup

theorem tagged_nodup (t : Option ℕ) (d : Dict Key (Val P A)) (h : DictOK d) :
    ((tagged t d).map Prod.fst).Nodup := by
  unfold tagged
  rw [List.map_map]
  have : ((Prod.fst : (Option ℕ × Key) × A → _) ∘ fun kv : Key × A => ((t, kv.1), kv.2))
      = (fun k => (t, k)) ∘ Prod.fst := rfl
  rw [this, ← List.map_map]
  apply List.Nodup.map
  · intro a b hab; exact (Prod.mk.inj hab).2
  · exact h.sublist (dictKeys_filterMap_sublist arr? d)

theorem taggedRuns_nodup (es : List (Dict Key (Val P A))) : ∀ (n : ℕ), (∀ e ∈ es, DictOK e) →
    ((taggedRuns n es).map Prod.fst).Nodup := by
  induction es with
  | nil => intro n _; exact List.nodup_nil
  | cons e es ih =>
    intro n h
    unfold taggedRuns
    rw [List.map_append]
    apply List.Nodup.append (tagged_nodup _ _ (h e List.mem_cons_self))
      (ih _ fun x hx => h x (List.mem_cons_of_mem _ hx))
    intro x hx hx'
    obtain ⟨y, hy, rfl⟩ := List.mem_map.1 hx
    obtain ⟨z, hz, hzy⟩ := List.mem_map.1 hx'
    unfold tagged at hy
    obtain ⟨kv, _, rfl⟩ := List.mem_map.1 hy
    obtain ⟨i, hi, hzi⟩ := mem_taggedRuns_tag hz
    rw [hzy] at hzi
    have := Option.some.inj hzi
    omega

/-- All archive entries of a logger. -/
def allTagged (l : Logger P A) : List ((Option ℕ × Key) × A) :=
  tagged none l.glob ++ taggedRuns 0 l.exps

/-- The dictionaries of a logger have distinct keys. -/
def WF (l : Logger P A) : Prop := DictOK l.glob ∧ ∀ e ∈ l.exps, DictOK e

theorem allTagged_nodup (l : Logger P A) (h : WF l) : (dictKeys (encAll (allTagged l))).Nodup := by
  unfold encAll dictKeys
  rw [List.map_map]
  have : ((Prod.fst : Key × A → _) ∘ fun x : (Option ℕ × Key) × A => (enc x.1, x.2))
      = enc ∘ Prod.fst := rfl
  rw [this, ← List.map_map]
  apply List.Nodup.map enc_inj
  unfold allTagged
  rw [List.map_append]
  apply List.Nodup.append (tagged_nodup _ _ h.1) (taggedRuns_nodup _ _ h.2)
  intro x hx hx'
  obtain ⟨y, hy, rfl⟩ := List.mem_map.1 hx
  obtain ⟨z, hz, hzy⟩ := List.mem_map.1 hx'
  unfold tagged at hy
  obtain ⟨kv, _, rfl⟩ := List.mem_map.1 hy
  obtain ⟨i, _, hzi⟩ := mem_taggedRuns_tag hz
  rw [hzy] at hzi
  cases hzi

theorem foldl_plains (e : Dict Key (Val P A)) (h : DictOK e) :
    (plains e).foldl (fun d p => dictSet d p.1 p.2) [] = plains e := by
  rw [foldl_dictSet_fresh]
  · rfl
  · rw [List.nil_append]
    exact h.sublist (dictKeys_filterMap_sublist plain? e)

theorem encAll_append (a b : List ((Option ℕ × Key) × A)) :
    encAll (a ++ b) = encAll a ++ encAll b := by unfold encAll; rw [List.map_append]

theorem saveRuns_eq (es : List (Dict Key (Val P A))) : ∀ (n : ℕ) (acc : List (Dict Key P))
    (np : Dict Key A), (∀ e ∈ es, DictOK e) →
    (es.zipIdx n).foldl (fun (acc : List (Dict Key P) × Dict Key A) ei =>
      let s := splitForSave ei.1 [] acc.2 ("exp_".toList ++ decStr ei.2)
      (acc.1 ++ [s.1], s.2)) (acc, np) =
    (acc ++ es.map plains, (encAll (taggedRuns n es)).foldl (fun d p => dictSet d p.1 p.2) np) := by
  induction es with
  | nil => intro n acc np _; simp [taggedRuns, encAll]
  | cons e es ih =>
    intro n acc np h
    rw [List.zipIdx_cons, List.foldl_cons]
    simp only []
    rw [splitForSave_eq e (some n) _ (fun k => rfl), ih _ _ _ (fun x hx => h x (List.mem_cons_of_mem _ hx)),
      foldl_plains e (h e List.mem_cons_self)]
    have ht : taggedRuns n (e :: es) = tagged (some n) e ++ taggedRuns (n + 1) es := rfl
    rw [ht, encAll_append, List.foldl_append]
    simp

theorem saveDicts_eq (l : Logger P A) (h : WF l) :
    saveDicts l = (plains l.glob, l.exps.map plains, encAll (allTagged l)) := by
  unfold saveDicts
  simp only []
  rw [splitForSave_eq l.glob none "glob".toList (fun k => rfl), saveRuns_eq _ _ _ _ h.2,
    foldl_plains _ h.1]
  simp only [List.nil_append]
  rw [← List.foldl_append, ← encAll_append]
  change (_, _, (encAll (allTagged l)).foldl (fun d p => dictSet d p.1 p.2) []) = _
  rw [foldl_dictSet_fresh _ _ (by rw [List.nil_append]; exact allTagged_nodup l h)]
  rfl

/-- Setting the arrays of `e` in the dictionary `d`. -/
def mergeArr (d : Dict Key (Val P A)) (e : Dict Key (Val P A)) : Dict Key (Val P A) :=
  ((arrays e).map fun kv => (kv.1, (Val.arr kv.2 : Val P A))).foldl (fun d p => dictSet d p.1 p.2) d

theorem loadGlob (e : Dict Key (Val P A)) : ∀ l : Logger P A,
    (encAll (tagged none e)).foldlM loadStep l = .ok { l with glob := mergeArr l.glob e } := by
  unfold mergeArr tagged encAll
  generalize arrays e = xs
  induction xs with
  | nil => intro l; rfl
  | cons x xs ih =>
    intro l
    simp only [List.map_cons, List.foldlM_cons, List.foldl_cons] at ih ⊢
    have : loadStep l (enc (none, x.1), x.2) = .ok (l.storeGlobal x.1 (.arr x.2)) := by
      unfold loadStep
      simp only []
      rw [splitFirst_glob]
      simp
    rw [this]
    exact ih _

theorem loadRun (e : Dict Key (Val P A)) (i : ℕ) : ∀ l : Logger P A, i < l.exps.length →
    (encAll (tagged (some i) e)).foldlM loadStep l =
      .ok { l with exps := l.exps.modify i fun d => mergeArr d e } := by
  unfold mergeArr tagged encAll
  generalize arrays e = xs
  induction xs with
  | nil =>
    intro l _
    have : (l.exps.modify i fun d => List.foldl (fun d p => dictSet d p.1 p.2) d
        (([] : Dict Key A).map fun kv => (kv.1, (Val.arr kv.2 : Val P A)))) = l.exps := by
      show l.exps.modify i id = _
      simp
    rw [this]
    rfl
  | cons x xs ih =>
    intro l hl
    simp only [List.map_cons, List.foldlM_cons, List.foldl_cons] at ih ⊢
    have : loadStep l (enc (some i, x.1), x.2) =
        .ok { l with exps := l.exps.modify i fun d => dictSet d x.1 (.arr x.2) } := by
      unfold loadStep
      simp only []
      rw [splitFirst_exp]
      simp only []
      rw [if_neg (by decide), if_pos trivial, splitFirst_num]
      simp only []
      rw [parseNat_decStr]
      show (if i < l.exps.length then _ else _) = _
      rw [if_pos hl]
      rfl
    rw [this]
    simp only [bind, Except.bind] at ih ⊢
    rw [ih _ (by simpa using hl)]
    simp only [List.modify_modify_eq]
    rfl

theorem modify_length_append {α : Type} (f : α → α) (pre : List α) (c : α) (cur : List α) :
    (pre ++ c :: cur).modify pre.length f = pre ++ f c :: cur := by
  induction pre with
  | nil => rfl
  | cons a pre ih => simp [ih]

theorem loadRuns (es : List (Dict Key (Val P A))) : ∀ (l : Logger P A)
    (pre cur : List (Dict Key (Val P A))), l.exps = pre ++ cur → cur.length = es.length →
    (encAll (taggedRuns pre.length es)).foldlM loadStep l =
      .ok { l with exps := pre ++ List.zipWith mergeArr cur es } := by
  induction es with
  | nil =>
    intro l pre cur h hlen
    have : cur = [] := List.length_eq_zero_iff.1 hlen
    subst this
    rw [List.append_nil] at h
    simp only [List.zipWith_nil_left, List.append_nil]
    rw [← h]
    rfl
  | cons e es ih =>
    intro l pre cur h hlen
    cases cur with
    | nil => cases hlen
    | cons c cur =>
      unfold taggedRuns
      rw [encAll_append, List.foldlM_append, loadRun e _ l (by rw [h]; simp)]
      have hmod : (l.exps.modify pre.length fun d => mergeArr d e) = (pre ++ [mergeArr c e]) ++ cur := by
        rw [h, modify_length_append]
        simp
      have := ih { l with exps := l.exps.modify pre.length fun d => mergeArr d e }
        (pre ++ [mergeArr c e]) cur hmod (by simpa using hlen)
      rw [List.length_append, List.length_singleton] at this
      simp only [bind, Except.bind]
      rw [this]
      simp

theorem dictGet?_plainDict (d : Dict Key P) (k : Key) :
    dictGet? (plainDict d : Dict Key (Val P A)) k = (dictGet? d k).map Val.plain := by
  unfold plainDict dictGet?
  induction d with
  | nil => rfl
  | cons p d ih =>
    by_cases h : p.1 = k
    · simp [List.find?, h]
    · simp only [List.map_cons, List.find?, h, decide_false]
      exact ih

/-- Plain values and arrays together restore the dictionary. -/
theorem dictGet?_merge (e : Dict Key (Val P A)) (h : DictOK e) (k : Key) :
    dictGet? (mergeArr (plainDict (plains e)) e) k = dictGet? e k := by
  unfold mergeArr
  rw [dictGet?_foldl_set]
  · have h1 : dictGet? ((arrays e).map fun kv => (kv.1, (Val.arr kv.2 : Val P A))) k =
        (dictGet? e k).bind fun v => (arr? v).map Val.arr := by
      rw [← dictGet?_filterMap _ e k h]
      unfold arrays
      rw [List.map_filterMap]
      congr 1
      apply List.filterMap_congr
      intro x _
      cases arr? x.2 <;> rfl
    rw [h1, dictGet?_plainDict]
    unfold plains
    rw [dictGet?_filterMap _ e k h]
    cases dictGet? e k with
    | none => rfl
    | some v => cases v <;> rfl
  · have : dictKeys ((arrays e).map fun kv => (kv.1, (Val.arr kv.2 : Val P A))) = dictKeys (arrays e) := by
      unfold dictKeys; rw [List.map_map]; rfl
    rw [this]
    exact h.sublist (dictKeys_filterMap_sublist arr? e)

theorem dictGet?_plainPart (e : Dict Key (Val P A)) (h : DictOK e) (k : Key) :
    dictGet? (plainDict (plains e) : Dict Key (Val P A)) k =
      (dictGet? e k).bind fun v => (plain? v).map Val.plain := by
  rw [dictGet?_plainDict]
  unfold plains
  rw [dictGet?_filterMap _ e k h]
  cases dictGet? e k with
  | none => rfl
  | some v => cases v <;> rfl

end Verif.Logger
