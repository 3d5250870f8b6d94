import Verif.Spec.Containers
import Verif.Lemmas.Interchange
import Verif.Lemmas.InterchangeEnc
/-!
# Lemmas: containers and iterators
-/
namespace Bytecodec

open Spec

variable {σ τ α κ ι : Type}

/-! ## `collect` -/

/-- The same exit with the items put into a container. -/
def LoopExit.into (ext : κ → α → κ) (d : κ) : LoopExit σ α → IntoExit σ κ
  | .done o s items => .done o s (items.foldl ext d)
  | .ret r s items => .ret r s (items.foldl ext d)

theorem collectLoop_into_some (D : Decoder σ α) (ext : κ → α → κ) (d : κ) (b : Bytes) (e : Eos) :
    ∀ (o : Nat) (s : σ) (items : List α) (x : LoopExit σ α), collectLoop D b e o s items = some x →
      collectIntoLoop ext D b e o s (items.foldl ext d) = some (x.into ext d) := by
  apply collectLoop.partial_correctness D b e
    (motive := fun o s items x => collectIntoLoop ext D b e o s (items.foldl ext d) = some (x.into ext d))
  intro loop ih o s items x heq
  rw [collectIntoLoop]
  split at heq
  · next hlt =>
    rw [if_pos hlt]
    generalize tryDecode D s o b e = p at heq
    cases p with
    | ret r s' => cases heq; rfl
    | next o' s' =>
      simp only at heq ⊢
      generalize D.finish s' = q at heq
      obtain ⟨r, s''⟩ := q
      cases r with
      | ok y =>
        have := ih _ _ _ _ heq
        rw [List.foldl_append] at this
        exact this
      | _ => cases heq; rfl
  · next hlt =>
    rw [if_neg hlt]
    cases heq
    rfl

theorem collectIntoLoop_some (D : Decoder σ α) (ext : κ → α → κ) (b : Bytes) (e : Eos) :
    ∀ (o : Nat) (s : σ) (c : κ) (x : IntoExit σ κ), collectIntoLoop ext D b e o s c = some x →
      ∀ items : List α, collectLoop D b e o s items ≠ none := by
  apply collectIntoLoop.partial_correctness ext D b e
    (motive := fun o s c x => ∀ items : List α, collectLoop D b e o s items ≠ none)
  intro loop ih o s c x heq items
  rw [collectLoop]
  split at heq
  · next hlt =>
    rw [if_pos hlt]
    generalize tryDecode D s o b e = p at heq
    cases p with
    | ret r s' => simp
    | next o' s' =>
      simp only at heq ⊢
      generalize D.finish s' = q at heq
      obtain ⟨r, s''⟩ := q
      cases r with
      | ok y => exact ih _ _ _ _ heq _
      | _ => simp
  · next hlt =>
    rw [if_neg hlt]
    simp

theorem sim_collect_into (D : Decoder σ α) (ext : κ → α → κ) (d : κ) :
    Sim (collectIntoDecoder ext d D) (mapDecoder (collectDecoder D) (List.foldl ext d))
      (fun s t => s.inner = t.inner ∧ s.items = t.items.foldl ext d ∧ s.eos = t.eos) where
  idle := by rintro ⟨s, n, x⟩ ⟨t, n', x'⟩ ⟨h1, h2, h3⟩; simp only at h1 h2 h3; subst h1 h2 h3; rfl
  req := by rintro ⟨s, n, x⟩ ⟨t, n', x'⟩ ⟨h1, h2, h3⟩; simp only at h1 h2 h3; subst h1 h2 h3; rfl
  decode := by
    rintro ⟨s, x, n⟩ ⟨t, x', n'⟩ ⟨h1, h2, h3⟩ b e
    simp only at h1 h2 h3
    subst h1 h2 h3
    refine Meet.ite _ (.mk ⟨rfl, rfl, rfl⟩) ?_
    simp only
    cases hp : collectLoop D b e 0 s x' with
    | some p =>
      rw [collectLoop_into_some D ext d b e _ _ _ _ hp]
      cases p with
      | ret r i items => exact .mk ⟨rfl, rfl, rfl⟩
      | done o i items => exact .mk ⟨rfl, rfl, rfl⟩
    | none =>
      cases hq : collectIntoLoop ext D b e 0 s (x'.foldl ext d) with
      | none => exact .mk ⟨rfl, rfl, rfl⟩
      | some q => exact (collectIntoLoop_some D ext b e _ _ _ _ hq _ hp).elim
  finish := by
    rintro ⟨s, x, n⟩ ⟨t, x', n'⟩ ⟨h1, h2, h3⟩
    simp only at h1 h2 h3
    subst h1 h2 h3
    simp only [collectIntoDecoder, collectDecoder, mapDecoder]
    cases n <;> exact .mk ⟨rfl, rfl, rfl⟩

/-! ## `collectn` -/

theorem collectNIntoLoop_eq (D : Decoder σ α) (ext : κ → α → κ) (d : κ) (b : Bytes) (e : Eos) :
    ∀ (n o : Nat) (s : σ) (items : List α),
    collectNIntoLoop ext D b e n o s (items.foldl ext d) =
      match collectNLoop D b e n o s items with
      | .done o s items n => .done o s (items.foldl ext d) n
      | .ret r s items n => .ret r s (items.foldl ext d) n := by
  intro n
  induction n with
  | zero => intros; rfl
  | succ n ih =>
    intro o s items
    simp only [collectNLoop, collectNIntoLoop]
    split
    · generalize tryDecode D s o b e = p
      cases p with
      | ret r s' => rfl
      | next o' s' =>
        simp only
        generalize D.finish s' = q
        obtain ⟨r, s''⟩ := q
        cases r with
        | ok x =>
          have := ih o' s'' (items ++ [x])
          rw [List.foldl_append] at this
          exact this
        | _ => rfl
    · rfl

theorem sim_collectN_into (D : Decoder σ α) (ext : κ → α → κ) (d : κ) :
    Sim (collectNIntoDecoder ext d D) (mapDecoder (collectNDecoder D) (List.foldl ext d))
      (fun s t => s.inner = t.inner ∧ s.remaining = t.remaining ∧ s.items = t.items.foldl ext d) where
  idle := by rintro ⟨s, n, x⟩ ⟨t, n', x'⟩ ⟨h1, h2, h3⟩; simp only at h1 h2 h3; subst h1 h2 h3; rfl
  req := by rintro ⟨s, n, x⟩ ⟨t, n', x'⟩ ⟨h1, h2, h3⟩; simp only at h1 h2 h3; subst h1 h2 h3; rfl
  decode := by
    rintro ⟨s, n, x⟩ ⟨t, n', x'⟩ ⟨h1, h2, h3⟩ b e
    simp only at h1 h2 h3
    subst h1 h2 h3
    simp only [collectNIntoDecoder, collectNDecoder, mapDecoder, collectNIntoLoop_eq D ext d b e n 0 s x']
    generalize collectNLoop D b e n 0 s x' = p
    cases p with
    | ret r i items n => exact .mk ⟨rfl, rfl, rfl⟩
    | done o i items n => exact Meet.ite _ (.mk ⟨rfl, rfl, rfl⟩) (.mk ⟨rfl, rfl, rfl⟩)
  finish := by
    rintro ⟨s, n, x⟩ ⟨t, n', x'⟩ ⟨h1, h2, h3⟩
    simp only at h1 h2 h3
    subst h1 h2 h3
    simp only [collectNIntoDecoder, collectNDecoder, mapDecoder]
    by_cases hn : n = 0
    · rw [if_pos hn, if_pos hn]; exact .mk ⟨rfl, rfl, rfl⟩
    · rw [if_neg hn, if_neg hn]; exact .mk ⟨rfl, rfl, rfl⟩

/-! ## `repeat` over iterators that end -/

/-- The two inner loops of `repeat` agree. -/
inductive MeetI (list : ι → List α) (i : Option ι) : Started σ α → Option (StartedIter σ ι) → Prop
  | exhausted (t : σ) : MeetI list i (.exhausted t) (some (.exhausted t))
  | failed (r : Res Unit) (t : σ) (rest : ι) : i.isSome = true →
      MeetI list i (.failed r t (list rest)) (some (.failed r t rest))
  | busy (t : σ) (rest : Option ι) : rest.isSome = i.isSome →
      MeetI list i (.busy t ((rest.map list).getD [])) (some (.busy t rest))

theorem Spec.Lists.startNext {next : ι → Option (α × ι)} {list : ι → List α} (h : Lists next list)
    (E : Encoder σ α) : ∀ (xs : List α) (s : σ) (i : Option ι), xs = (i.map list).getD [] →
    MeetI list i (startNext E s xs) (startNextIter next E s i) := by
  intro xs
  induction xs with
  | nil =>
    intro s i hi
    rw [startNextIter]
    simp only [Bytecodec.startNext]
    split
    · have : i.bind next = none := by
        cases i with
        | none => rfl
        | some i =>
          cases hn : next i with
          | none => exact hn
          | some p => have := h.item i p.1 p.2 hn; simp [this] at hi
      rw [this]
      exact .exhausted _
    · have := MeetI.busy (list := list) (i := i) s i rfl
      rwa [← hi] at this
  | cons x xs ih =>
    intro s i hi
    rw [startNextIter]
    simp only [Bytecodec.startNext]
    split
    · cases i with
      | none => simp at hi
      | some i =>
        cases hn : next i with
        | none => have := h.last i hn; simp [this] at hi
        | some p =>
          obtain ⟨y, i'⟩ := p
          have hl := h.item i y i' hn
          simp only [Option.map_some, Option.getD_some] at hi
          rw [hl] at hi
          simp only [List.cons.injEq] at hi
          obtain ⟨rfl, rfl⟩ := hi
          simp only [Option.bind_some, hn]
          cases hs : E.start s x with
          | mk r s' =>
            cases r with
            | ok u =>
              have := ih s' (some i') rfl
              simp only
              revert this
              generalize Bytecodec.startNext E s' (list i') = p
              generalize startNextIter next E s' (some i') = q
              intro a
              cases a with
              | exhausted t => exact .exhausted t
              | failed r t rest _ => exact .failed r t rest rfl
              | busy t rest hr => exact .busy t rest hr
            | _ => exact .failed _ _ _ rfl
    · have := MeetI.busy (list := list) (i := i) s i rfl
      rwa [← hi] at this

theorem Spec.Lists.repeatLoop {next : ι → Option (α × ι)} {list : ι → List α} (h : Lists next list)
    (E : Encoder σ α) (cap : Nat) (e : Eos) :
    ∀ (k : Nat) (out : Bytes) (s : σ) (i : Option ι), cap + 1 - out.length ≤ k →
    Meet (fun (s : RepeatIterState σ ι) (t : RepeatState σ α) => s.inner = t.inner ∧ t.items = s.items.map list)
      (repeatIterLoop next E cap e out s i) (repeatLoop E cap e out s (i.map list)) := by
  intro k
  induction k with
  | zero =>
    intro out s i hk
    have a := h.startNext E _ s i rfl
    rw [repeatIterLoop, Bytecodec.repeatLoop]
    generalize Bytecodec.startNext E s ((i.map list).getD []) = p at a
    generalize startNextIter next E s i = q at a
    cases a with
    | exhausted t => exact .mk ⟨rfl, rfl⟩
    | failed r t rest hi =>
      cases i with
      | none => cases hi
      | some i => exact .mk ⟨rfl, rfl⟩
    | busy t rest hi =>
      simp only
      rw [if_pos (by omega), if_pos (by omega)]
      refine .mk ⟨rfl, ?_⟩
      cases i <;> cases rest <;> first | rfl | cases hi
  | succ k ih =>
    intro out s i hk
    have a := h.startNext E _ s i rfl
    rw [repeatIterLoop, Bytecodec.repeatLoop]
    generalize Bytecodec.startNext E s ((i.map list).getD []) = p at a
    generalize startNextIter next E s i = q at a
    cases a with
    | exhausted t => exact .mk ⟨rfl, rfl⟩
    | failed r t rest hi =>
      cases i with
      | none => cases hi
      | some i => exact .mk ⟨rfl, rfl⟩
    | busy t rest hi =>
      have hm : (Option.map (fun _ => (rest.map list).getD []) (i.map list)) = rest.map list := by
        cases i <;> cases rest <;> first | rfl | cases hi
      simp only [hm]
      split
      · exact .mk ⟨rfl, rfl⟩
      · generalize E.encode t (cap - out.length) e = p
        obtain ⟨r, s''⟩ := p
        cases r with
        | ok bs =>
          simp only
          split
          · exact .mk ⟨rfl, rfl⟩
          · exact ih _ _ _ (by simp only [List.length_append]; omega)
        | _ => exact .mk ⟨rfl, rfl⟩

theorem Spec.Lists.simE {next : ι → Option (α × ι)} {list : ι → List α} (h : Lists next list)
    (E : Encoder σ α) : SimE (repeatIterEncoder next E) (mapFromEncoder (repeatEncoder E) list)
      (fun s t => s.inner = t.inner ∧ t.items = s.items.map list) where
  idle := by
    rintro ⟨s, x⟩ ⟨t, x'⟩ ⟨h1, h2⟩
    simp only at h1 h2
    subst h1 h2
    cases x <;> rfl
  req := by
    rintro ⟨s, x⟩ ⟨t, x'⟩ ⟨h1, h2⟩
    simp only at h1 h2
    subst h1 h2
    cases x <;> rfl
  encode := by
    rintro ⟨s, x⟩ ⟨t, x'⟩ ⟨h1, h2⟩ cap e
    simp only at h1 h2
    subst h1 h2
    exact h.repeatLoop E cap e _ _ _ _ (Nat.le_refl _)
  start := by
    rintro ⟨s, x⟩ ⟨t, x'⟩ ⟨h1, h2⟩ i
    simp only at h1 h2
    subst h1 h2
    cases x with
    | none => exact .mk ⟨rfl, rfl⟩
    | some x => exact .mk ⟨rfl, rfl⟩

/-! ## `repeat` over endless iterators -/

theorem firstOf_succ (b : Nat → Bytes) (m : Nat) : firstOf b (m + 1) = firstOf b m ++ b m := by
  simp [firstOf, List.range_succ]

theorem firstOf_length {b : Nat → Bytes} (hb : ∀ n, b n ≠ []) : ∀ m, m ≤ (firstOf b m).length
  | 0 => Nat.zero_le _
  | m + 1 => by
    have := firstOf_length hb m
    have := List.length_pos_iff.2 (hb m)
    rw [firstOf_succ, List.length_append]
    omega

theorem firstOf_prefix (b : Nat → Bytes) {m : Nat} : ∀ {n}, m ≤ n → firstOf b m <+: firstOf b n
  | 0, h => by cases Nat.le_zero.1 h; exact List.prefix_refl _
  | n + 1, h => by
    rcases Nat.lt_or_eq_of_le h with h | rfl
    · exact (firstOf_prefix b (by omega : m ≤ n)).trans (by rw [firstOf_succ]; exact List.prefix_append _ _)
    · exact List.prefix_refl _

section endless

variable {next : ι → Option (α × ι)} {iter : Nat → ι} {item : Nat → α} {E : Encoder σ α} {s₀ : σ}
  {strict : Bool} {dom : α → Prop} {enc : α → Except ErrorKind Bytes} {b : Nat → Bytes}

/-- The inner encoder after it was given the first `n` items and emitted these bytes. -/
structure Fed (E : Encoder σ α) (s₀ : σ) (dom : α → Prop) (enc : α → Except ErrorKind Bytes) (b : Nat → Bytes)
    (s : σ) (n : Nat) (emitted : Bytes) : Prop where
  run : EncRun E dom enc s₀ s (firstOf b n) emitted
  owes : E.isIdle s = true ∨ emitted.length < (firstOf b n).length

/-- The inner encoder gets the next item if it is idle, and owes bytes afterwards. -/
theorem startNext_endless (hE : Emits strict E s₀ dom enc) (hi : Endless next iter item)
    (hd : ∀ n, dom (item n)) (hc : ∀ n, enc (item n) = .ok (b n)) (hb : ∀ n, b n ≠ []) {s : σ} {n : Nat}
    {emitted : Bytes} (hr : Fed E s₀ dom enc b s n emitted) :
    ∃ s' m, startNextIter next E s (some (iter n)) = some (.busy s' (some (iter m))) ∧
      Fed E s₀ dom enc b s' m emitted ∧ E.isIdle s' = false ∧ emitted.length < (firstOf b m).length := by
  cases hs : E.isIdle s with
  | false =>
    have := hr.owes.resolve_left (by simp [hs])
    refine ⟨s, n, ?_, hr, hs, this⟩
    rw [startNextIter]
    simp [hs]
  | true =>
    cases hst : E.start s (item n) with
    | mk r s' =>
      have ha := hE.accepts hr.run hs (hd n) (hc n)
      rw [hst] at ha
      simp only at ha
      subst ha
      have hr' := hr.run.start hs (hd n) (hc n) hst
      rw [← firstOf_succ] at hr'
      have hl := congrArg List.length (hE.complete hr.run hs)
      have hlt : emitted.length < (firstOf b (n + 1)).length := by
        have := List.length_pos_iff.2 (hb n)
        rw [firstOf_succ, List.length_append]
        omega
      have hs' : E.isIdle s' = false := by
        cases hs' : E.isIdle s' with
        | false => rfl
        | true => have := congrArg List.length (hE.complete hr' hs'); omega
      refine ⟨s', n + 1, ?_, ⟨hr', .inr hlt⟩, hs', hlt⟩
      rw [startNextIter]
      simp only [hs, if_true, Option.bind_some, hi n, hst]
      rw [startNextIter]
      simp [hs']

theorem repeatLoop_endless (hE : Emits strict E s₀ dom enc) (hi : Endless next iter item)
    (hd : ∀ n, dom (item n)) (hc : ∀ n, enc (item n) = .ok (b n)) (hb : ∀ n, b n ≠ []) (cap : Nat) :
    ∀ (k : Nat) (out : Bytes) (s : σ) (n : Nat) (emitted : Bytes), cap - out.length ≤ k → out.length ≤ cap →
    Fed E s₀ dom enc b s n emitted →
    ∃ s' m new, repeatIterLoop next E cap (Eos.new false) out s (some (iter n)) =
        (.ok (out ++ new), ⟨s', some (iter m)⟩) ∧ (out ++ new).length = cap ∧
      Fed E s₀ dom enc b s' m (emitted ++ new) := by
  intro k
  induction k with
  | zero =>
    intro out s n emitted hk hle hr
    obtain ⟨s', m, h1, h2, h3, h4⟩ := startNext_endless hE hi hd hc hb hr
    obtain ⟨s'', h5, h6⟩ := hE.encode (cap := 0) (e := Eos.new false) h2.run (by intro h; cases h)
    refine ⟨s'', m, [], ?_, by simp; omega, ⟨?_, .inr (by simpa using h4)⟩⟩
    · rw [repeatIterLoop, h1]
      simp only
      rw [if_neg (by omega), show cap - out.length = 0 by omega, h5]
      simp
    · exact h2.run.encode (e := Eos.new false) (by intro h; cases h) (by simpa using h5)
  | succ k ih =>
    intro out s n emitted hk hle hr
    obtain ⟨s', m, h1, h2, h3, h4⟩ := startNext_endless hE hi hd hc hb hr
    obtain ⟨s'', h5, h6⟩ := hE.encode (cap := cap - out.length) (e := Eos.new false) h2.run (by intro h; cases h)
    have h7 := h2.run.encode (by intro h; cases h) h5
    have hlen : (List.take (cap - out.length) (List.drop emitted.length (firstOf b m))).length =
        min (cap - out.length) ((firstOf b m).length - emitted.length) := by simp
    have h8 : Fed E s₀ dom enc b s'' m
        (emitted ++ List.take (cap - out.length) (List.drop emitted.length (firstOf b m))) := by
      refine ⟨h7, ?_⟩
      by_cases hf : (firstOf b m).length - emitted.length ≤ cap - out.length
      · exact .inl (h6.2 hf)
      · refine .inr ?_
        rw [List.length_append, hlen]
        omega
    rw [repeatIterLoop, h1]
    simp only
    rw [if_neg (by omega), h5]
    simp only
    split
    · next hz =>
      rw [hlen] at hz
      refine ⟨s'', m, [], by simp, by simp; omega, ?_⟩
      rw [List.eq_nil_of_length_eq_zero (hlen.trans hz)] at h8
      exact h8
    · next hz =>
      obtain ⟨t, m', new, h9, h10, h11⟩ := ih
        (out ++ List.take (cap - out.length) (List.drop emitted.length (firstOf b m))) s'' m _ (by
        rw [List.length_append]; omega) (by rw [List.length_append]; omega) h8
      refine ⟨t, m', List.take (cap - out.length) (List.drop emitted.length (firstOf b m)) ++ new,
        by rw [h9, List.append_assoc], by rw [← List.append_assoc]; exact h10, ?_⟩
      rw [← List.append_assoc]
      exact h11

theorem repeatLoop_endless_eos (hE : Emits true E s₀ dom enc) (hi : Endless next iter item)
    (hd : ∀ n, dom (item n)) (hc : ∀ n, enc (item n) = .ok (b n)) (hb : ∀ n, b n ≠ []) (cap : Nat) {e : Eos}
    (he : e.isReached = true) :
    ∀ (k : Nat) (out : Bytes) (s : σ) (n : Nat) (emitted : Bytes), cap - out.length ≤ k → out.length ≤ cap →
    Fed E s₀ dom enc b s n emitted →
    (repeatIterLoop next E cap e out s (some (iter n))).1 = .err .unexpectedEos := by
  intro k
  induction k with
  | zero =>
    intro out s n emitted hk hle hr
    obtain ⟨s', m, h1, h2, h3, h4⟩ := startNext_endless hE hi hd hc hb hr
    have h5 := hE.tooShort rfl (cap := cap - out.length) h2.run he (by omega)
    cases hp : E.encode s' (cap - out.length) e with
    | mk r s'' =>
      rw [hp] at h5
      simp only at h5
      subst h5
      rw [repeatIterLoop, h1]
      simp only
      rw [if_neg (by omega), hp]
  | succ k ih =>
    intro out s n emitted hk hle hr
    obtain ⟨s', m, h1, h2, h3, h4⟩ := startNext_endless hE hi hd hc hb hr
    by_cases hf : (firstOf b m).length - emitted.length ≤ cap - out.length
    · obtain ⟨s'', h5, h6⟩ := hE.encode (cap := cap - out.length) (e := e) h2.run fun _ => hf
      have h7 := h2.run.encode (fun _ => hf) h5
      have hlen : (List.take (cap - out.length) (List.drop emitted.length (firstOf b m))).length =
          (firstOf b m).length - emitted.length := by simp; omega
      rw [repeatIterLoop, h1]
      simp only
      rw [if_neg (by omega), h5]
      simp only
      rw [if_neg (by omega)]
      exact ih _ s'' m _ (by rw [List.length_append]; omega) (by rw [List.length_append]; omega)
        ⟨h7, .inl (h6.2 hf)⟩
    · have h5 := hE.tooShort rfl (cap := cap - out.length) h2.run he (by omega)
      cases hp : E.encode s' (cap - out.length) e with
      | mk r s'' =>
        rw [hp] at h5
        simp only at h5
        subst h5
        rw [repeatIterLoop, h1]
        simp only
        rw [if_neg (by omega), hp]

/-- Any sequence of `encode` calls. -/
theorem encodeEach_endless (hE : Emits strict E s₀ dom enc) (hi : Endless next iter item)
    (hd : ∀ n, dom (item n)) (hc : ∀ n, enc (item n) = .ok (b n)) (hb : ∀ n, b n ≠ []) :
    ∀ (caps : List Nat) (s : σ) (n : Nat) (emitted : Bytes), Fed E s₀ dom enc b s n emitted →
    ∃ (s' : σ) (m : Nat) (pieces : List Bytes), encodeEach (repeatIterEncoder next E) ⟨s, some (iter n)⟩ caps =
        (pieces.map .ok, ⟨s', some (iter m)⟩) ∧ pieces.map List.length = caps ∧
      Fed E s₀ dom enc b s' m (emitted ++ pieces.flatten)
  | [], s, n, emitted, hr => ⟨s, n, [], rfl, rfl, by simpa using hr⟩
  | cap :: caps, s, n, emitted, hr => by
    obtain ⟨s', m, new, h1, h2, h3⟩ := repeatLoop_endless hE hi hd hc hb cap _ [] s n emitted
      (Nat.le_refl _) (Nat.zero_le _) hr
    obtain ⟨t, m', pieces, h4, h5, h6⟩ := encodeEach_endless hE hi hd hc hb caps s' m _ h3
    have h7 : (repeatIterEncoder next E).encode ⟨s, some (iter n)⟩ cap (Eos.new false) =
        (.ok new, ⟨s', some (iter m)⟩) := h1
    refine ⟨t, m', new :: pieces, ?_, ?_, ?_⟩
    · simp only [encodeEach, h7, h4, List.map_cons]
    · simp only [List.map_cons, h5]
      exact congrArg (· :: caps) h2
    · simpa using h6

theorem cut_of_prefix : ∀ (pieces : List Bytes) {all : Bytes}, pieces.flatten <+: all →
    cut (pieces.map List.length) all = pieces
  | [], _, _ => rfl
  | p :: ps, all, h => by
    obtain ⟨rest, rfl⟩ := h
    simp only [List.map_cons, cut, List.flatten_cons, List.append_assoc, List.take_left', List.drop_left']
    rw [cut_of_prefix ps ⟨rest, rfl⟩]

end endless

theorem startNextIter_endless_null : ∀ (s : Unit) (i : Option Nat) (x : StartedIter Unit Nat),
    startNextIter (fun n => some (((), n + 1) : Unit × Nat)) nullEncoder.toEncoder s i = some x → i = none := by
  apply startNextIter.partial_correctness _ _ (motive := fun _ i _ => i = none)
  intro loop ih s i x heq
  cases i with
  | none => rfl
  | some i =>
    simp only [nullEncoder] at heq
    exact absurd (ih _ _ _ heq) (by simp)

end Bytecodec
