import Verif.Lemmas.TrackedOrigin
import Verif.Lemmas.TrackedStopEnc
/-!
# Lemmas: the same for encoders
-/
namespace Bytecodec

variable {κ σ α β τ υ : Type} {P : TError κ → Prop} {E : TEncoder κ σ α}

theorem only_bytes (hP : Open P) : OnlyEnc P (tBytesEncoder (κ := κ)) := by
  refine ⟨fun s n e => ?_, fun s x => only_ite (only_ok _ _) (only_err (hP.raised _ _) _)⟩
  simp only [tBytesEncoder]
  cases s.bytes with
  | none => exact only_ok _ _
  | some b => exact only_ite (only_panic _) (only_ite (only_ok _ _) (only_ite (only_err (hP.raised _ _) _) (only_ok _ _)))

theorem only_mapErrE {P' : TError κ → Prop} (h : OnlyEnc P E) (g : TError κ → TError κ) (hg : ∀ x, P x → P' (g x)) :
    OnlyEnc P' (tMapErrEncoder E g) :=
  ⟨fun s b e => only_mapErrP g hg (h.encode s b e), fun s x => only_mapErrP g hg (h.start s x)⟩

theorem only_mapFrom (h : OnlyEnc P E) (f : β → α) : OnlyEnc P (tMapFromEncoder E f) :=
  ⟨fun s n e => h.encode s n e, fun s x => h.start s (f x)⟩

theorem only_tryMapFrom (hP : Open P) (h : OnlyEnc P E) (f : β → Except (TError κ) α)
    (hf : ∀ a x, f a = .error x → P x) : OnlyEnc P (tTryMapFromEncoder E f) := by
  refine ⟨fun s n e => h.encode s n e, fun s x => ?_⟩
  simp only [tTryMapFromEncoder]
  cases hx : f x with
  | ok y => exact h.start s y
  | error k => exact only_tracked hP _ (only_err (hf x k hx) _)

theorem only_startNext (hP : Open P) (h : OnlyEnc P E) : ∀ (items : List α) (s : σ) r s' rest,
    tStartNext E s items = .failed r s' rest → Only P (r, s') := by
  intro items
  induction items with
  | nil => intro s r s' rest hx; rw [tStartNext] at hx; split at hx <;> cases hx
  | cons x xs ih =>
    intro s r s' rest hx
    rw [tStartNext] at hx
    split at hx
    · have ht := only_tracked hP (inCombinator 418) (h.start s x)
      generalize tracked (inCombinator 418) (E.start s x) = p at ht hx
      obtain ⟨a, t⟩ := p
      cases a with
      | ok u => exact ih _ _ _ _ hx
      | _ => cases hx; exact ht
    · cases hx

theorem only_failAs {r : TRes κ α} {s : τ} (h : Only P (r, s)) (t : υ) : Only P (TRes.failAs (β := β) r, t) := by
  cases r with
  | err x => exact only_err (h x rfl) _
  | _ => exact fun _ h => by cases h

theorem only_repeatLoop (hP : Open P) (h : OnlyEnc P E) (n : Nat) (e : Eos) (out : Bytes) (s : σ) (items : Option (List α)) :
    Only P (tRepeatLoop E n e out s items) := by
  generalize hm : n + 1 - out.length = m
  induction m using Nat.strongRecOn generalizing out s items with
  | ind m ih =>
    rw [tRepeatLoop]
    have hs := only_startNext hP h (items.getD []) s
    generalize tStartNext E s (items.getD []) = q at hs
    cases q with
    | exhausted s' => exact only_ok _ _
    | failed r s' rest => exact only_failAs (hs r s' rest rfl) _
    | busy s' rest =>
      simp only
      by_cases hn : n < out.length
      · rw [if_pos hn]; exact only_panic _
      · rw [if_neg hn]
        have ht := only_tracked hP (inCombinator 425) (h.encode s' (n - out.length) e)
        generalize tracked (inCombinator 425) (E.encode s' (n - out.length) e) = q at ht
        obtain ⟨r, s''⟩ := q
        cases r with
        | ok bs =>
          simp only
          by_cases hb : bs.length = 0
          · rw [if_pos hb]; exact only_ok _ _
          · rw [if_neg hb]
            exact ih _ (by rw [← hm, List.length_append]; omega) _ _ _ rfl
        | err x => exact only_err (ht x rfl) _
        | _ => exact fun _ h => by cases h

theorem only_repeat (hP : Open P) (h : OnlyEnc P E) : OnlyEnc P (tRepeatEncoder E) :=
  ⟨fun s n e => only_repeatLoop hP h n e [] s.inner s.items, fun _ _ => only_ite (only_ok _ _) (only_err (hP.raised _ _) _)⟩

theorem only_optional (hP : Open P) (h : OnlyEnc P E) : OnlyEnc P (tOptionalEncoder E) :=
  ⟨fun s n e => only_tracked hP _ (h.encode s n e), fun s x => by
    cases x with
    | none => exact only_ok _ _
    | some x => exact only_tracked hP _ (h.start s x)⟩

theorem only_lengthE (hP : Open P) (h : OnlyEnc P E) : OnlyEnc P (tLengthEncoder E) :=
  ⟨fun _ _ _ => only_ite (only_err (hP.raised _ _) _) (only_step _ _ (only_tracked hP _ (h.encode _ _ _)) fun _ _ =>
      only_ite (only_panic _) (only_ite (only_err (hP.raised _ _) _) (only_ok _ _))),
   fun _ _ => only_ite (only_step _ _ (only_tracked hP _ (h.start _ _)) fun _ _ => only_ok _ _) (only_err (hP.raised _ _) _)⟩

theorem only_maxBytesE (hP : Open P) (h : OnlyEnc P E) : OnlyEnc P (tMaxBytesEncoder E) :=
  ⟨fun _ _ _ => only_step _ _ (only_tracked hP _ (h.encode _ _ _)) fun _ _ =>
      only_ite (only_err (hP.raised _ _) _) (only_ite (only_ok _ _) (only_ok _ _)),
   fun _ _ => only_step _ _ (only_tracked hP _ (h.start _ _)) fun _ _ => only_ok _ _⟩

theorem only_sliceE (hP : Open P) (h : OnlyEnc P E) : OnlyEnc P (tSliceEncoder E) := by
  refine ⟨fun s n e => ?_, fun s x => only_step _ _ (only_tracked hP _ (h.start _ _)) fun _ _ => only_ok _ _⟩
  simp only [tSliceEncoder]
  cases e.back (n - min n s.consumable) with
  | ok e' => exact only_step _ _ (only_tracked hP _ (h.encode _ _ _)) fun _ _ => only_ite (only_panic _) (only_ok _ _)
  | _ => exact only_panic _

theorem only_last (hP : Open P) (h : OnlyEnc P E) : OnlyEnc P (tLastEncoder E) := by
  refine ⟨fun s n e => ?_, fun s x => x.elim⟩
  have he : ∀ t : LastState σ α, Only P (TRes.step (tracked (inCombinator 1281) (E.encode t.inner n e))
      (fun i => { t with inner := i }) fun bs i => (.ok bs, { t with inner := i })) := fun t =>
    only_step _ _ (only_tracked hP _ (h.encode _ _ _)) fun _ _ => only_ok _ _
  refine only_ite ?_ (he s)
  cases s.item with
  | none => exact he s
  | some x => exact only_step _ _ (only_tracked hP _ (h.start _ _)) fun _ i => he ⟨i, none⟩

theorem only_pairE {σ0 α0 σ1 α1 : Type} {E0 : TEncoder κ σ0 α0} {E1 : TEncoder κ σ1 α1} (hP : Open P)
    (h0 : OnlyEnc P E0) (h1 : OnlyEnc P E1) : OnlyEnc P (tPairEncoder E0 E1) := by
  refine ⟨fun s b e => ?_, fun s x => ?_⟩
  · simp only [tPairEncoder]
    have ht := only_tryEncode hP ⟨"tuple.rs", 133⟩ h0 s.1 [] b e
    generalize tTryEncode ⟨"tuple.rs", 133⟩ E0 s.1 [] b e = p at ht
    cases p with
    | ret r s => exact (ht r s rfl).state _
    | next o s' =>
      simp only
      have ht := only_tryEncode hP ⟨"tuple.rs", 133⟩ h1 s.2 o b e
      generalize tTryEncode ⟨"tuple.rs", 133⟩ E1 s.2 o b e = p at ht
      cases p with
      | ret r s => exact (ht r s rfl).state _
      | next o s' => exact only_ok _ _
  · refine only_step _ _ (only_tracked hP _ (h0.start _ _)) fun a s' => ?_
    exact only_step _ _ (only_tracked hP _ (h1.start _ _)) fun a s' => only_ok _ _

theorem only_encodeAll {ω : Type} (hP : Open P) (h : OnlyEnc P E) (zero : κ) (W : TWriter κ ω)
    (hW : ∀ w b, Only P (tWriteAll zero W w b)) :
    ∀ (s : σ) (w : ω) (x : TRes κ Unit × σ × ω), tEncodeAll zero E W s w = some x → Only P x := by
  apply tEncodeAll.partial_correctness zero E W (motive := fun s w x => Only P x)
  intro loop ih s w x heq
  split at heq
  · cases heq; exact only_ok _ _
  · have ht := only_tracked hP ⟨"io.rs", 98⟩ (h.encode s 1024 (Eos.new false))
    generalize tracked ⟨"io.rs", 98⟩ (E.encode s 1024 (Eos.new false)) = p at heq ht
    obtain ⟨r, s'⟩ := p
    cases r with
    | ok bs =>
      simp only at heq
      split at heq
      · cases heq; exact only_panic _
      · have ht := only_tracked hP ⟨"io.rs", 99⟩ (hW w bs)
        generalize tracked ⟨"io.rs", 99⟩ (tWriteAll zero W w bs) = q at heq ht
        obtain ⟨r, w'⟩ := q
        cases r with
        | ok u =>
          simp only at heq
          split at heq
          · cases heq; exact only_err (hP.raised _ _) _
          · exact ih _ _ _ heq
        | err x => cases heq; exact only_err (ht x rfl) _
        | _ => cases heq; exact fun _ h => by cases h
    | err x => cases heq; exact only_err (ht x rfl) _
    | _ => cases heq; exact fun _ h => by cases h

theorem only_writeAll {ω : Type} (zero : κ) (W : TWriter κ ω) (hz : P (.ofIo .other zero))
    (hW : ∀ w b k c, (W.write w b).1 = .error k c → P (.ofIo k c)) (w : ω) (b : Bytes) :
    Only P (tWriteAll zero W w b) := by
  fun_induction tWriteAll zero W w b with
  | case1 w b h => exact only_ok _ _
  | case2 w b h k c w' hw => exact only_err (hW w b k c (by rw [hw])) _
  | case3 w b h w' hw => exact only_err hz _
  | case4 w b h n w' hw h1 h2 => exact only_panic _
  | case5 w b h n w' hw h1 h2 ih => exact ih

theorem only_intoBytes (hP : Open P) (h : OnlyEnc P E) (zero : κ) (s : σ) (x : α) :
    Only P (tEncodeIntoBytes zero E s x) := by
  refine only_step _ _ (only_tracked hP _ (h.start _ _)) fun u s' => ?_
  cases E.requiring s' with
  | finite n =>
    exact only_ite (only_capacity _) (only_step _ _ (only_tracked hP _ (h.encode _ _ _)) fun _ _ =>
      only_ite (only_ok _ _) (only_err (hP.raised _ _) _))
  | infinite => exact only_err (hP.bare _ _) _
  | unknown =>
    simp only
    cases hx : tEncodeAll zero E tVecWriter s' [] with
    | none => exact only_diverge _
    | some p =>
      have := only_encodeAll hP h zero tVecWriter
        (fun w b => by obtain ⟨w', h⟩ := tWriteAll_vec zero w b; rw [h]; exact only_ok _ _) _ _ _ hx
      obtain ⟨r, s'', out⟩ := p
      exact only_step _ _ (only_tracked hP _ (this.state _)) fun _ _ => only_ok _ _

theorem only_preEncode (hP : Open P) (h : OnlyEnc P E) (zero : κ) : OnlyEnc P (tPreEncodeEncoder zero E) :=
  ⟨fun _ _ _ => only_step _ _ (only_tracked hP _ ((only_bytes hP).encode _ _ _)) fun _ _ => only_ok _ _,
   fun _ _ => only_step _ _ (only_tracked hP _ (only_intoBytes hP h zero _ _)) fun _ _ =>
    only_step _ _ (only_tracked hP _ ((only_bytes hP).start _ _)) fun _ _ => only_ok _ _⟩

theorem only_partE (E : TEncoder κ σ α) : OnlyEnc (Arrives (RaisedByE E)) E :=
  ⟨fun s b e x hx => ⟨x, .inl (.inl ⟨s, b, e, hx⟩), .refl x⟩, fun s a x hx => ⟨x, .inl (.inr ⟨s, a, hx⟩), .refl x⟩⟩

theorem only_tuple3E {σ0 α0 σ1 α1 σ2 α2 : Type} {E0 : TEncoder κ σ0 α0} {E1 : TEncoder κ σ1 α1} {E2 : TEncoder κ σ2 α2} (hP : Open P)
    (h0 : OnlyEnc P E0) (h1 : OnlyEnc P E1) (h2 : OnlyEnc P E2) :
    OnlyEnc P (tTuple3Encoder E0 E1 E2) := by
  refine ⟨fun s b e => ?_, fun s x => ?_⟩
  · simp only [tTuple3Encoder]
    have ht := only_tryEncode hP ⟨"tuple.rs", 134⟩ h0 s.1 [] b e
    generalize tTryEncode ⟨"tuple.rs", 134⟩ E0 s.1 [] b e = p at ht
    cases p with
    | ret r s => exact (ht r s rfl).state _
    | next o0 s0 =>
      simp only
      clear ht
      have ht := only_tryEncode hP ⟨"tuple.rs", 134⟩ h1 s.2.1 o0 b e
      generalize tTryEncode ⟨"tuple.rs", 134⟩ E1 s.2.1 o0 b e = p at ht
      cases p with
      | ret r s => exact (ht r s rfl).state _
      | next o1 s1 =>
        simp only
        clear ht
        have ht := only_tryEncode hP ⟨"tuple.rs", 134⟩ h2 s.2.2 o1 b e
        generalize tTryEncode ⟨"tuple.rs", 134⟩ E2 s.2.2 o1 b e = p at ht
        cases p with
        | ret r s => exact (ht r s rfl).state _
        | next o s' => exact only_ok _ _
  · refine only_step _ _ (only_tracked hP _ (h0.start _ _)) fun _ _ => ?_
    refine only_step _ _ (only_tracked hP _ (h1.start _ _)) fun _ _ => ?_
    refine only_step _ _ (only_tracked hP _ (h2.start _ _)) fun _ _ => ?_
    exact only_ok _ _

theorem only_tuple4E {σ0 α0 σ1 α1 σ2 α2 σ3 α3 : Type} {E0 : TEncoder κ σ0 α0} {E1 : TEncoder κ σ1 α1} {E2 : TEncoder κ σ2 α2} {E3 : TEncoder κ σ3 α3} (hP : Open P)
    (h0 : OnlyEnc P E0) (h1 : OnlyEnc P E1) (h2 : OnlyEnc P E2) (h3 : OnlyEnc P E3) :
    OnlyEnc P (tTuple4Encoder E0 E1 E2 E3) := by
  refine ⟨fun s b e => ?_, fun s x => ?_⟩
  · simp only [tTuple4Encoder]
    have ht := only_tryEncode hP ⟨"tuple.rs", 135⟩ h0 s.1 [] b e
    generalize tTryEncode ⟨"tuple.rs", 135⟩ E0 s.1 [] b e = p at ht
    cases p with
    | ret r s => exact (ht r s rfl).state _
    | next o0 s0 =>
      simp only
      clear ht
      have ht := only_tryEncode hP ⟨"tuple.rs", 135⟩ h1 s.2.1 o0 b e
      generalize tTryEncode ⟨"tuple.rs", 135⟩ E1 s.2.1 o0 b e = p at ht
      cases p with
      | ret r s => exact (ht r s rfl).state _
      | next o1 s1 =>
        simp only
        clear ht
        have ht := only_tryEncode hP ⟨"tuple.rs", 135⟩ h2 s.2.2.1 o1 b e
        generalize tTryEncode ⟨"tuple.rs", 135⟩ E2 s.2.2.1 o1 b e = p at ht
        cases p with
        | ret r s => exact (ht r s rfl).state _
        | next o2 s2 =>
          simp only
          clear ht
          have ht := only_tryEncode hP ⟨"tuple.rs", 135⟩ h3 s.2.2.2 o2 b e
          generalize tTryEncode ⟨"tuple.rs", 135⟩ E3 s.2.2.2 o2 b e = p at ht
          cases p with
          | ret r s => exact (ht r s rfl).state _
          | next o s' => exact only_ok _ _
  · refine only_step _ _ (only_tracked hP _ (h0.start _ _)) fun _ _ => ?_
    refine only_step _ _ (only_tracked hP _ (h1.start _ _)) fun _ _ => ?_
    refine only_step _ _ (only_tracked hP _ (h2.start _ _)) fun _ _ => ?_
    refine only_step _ _ (only_tracked hP _ (h3.start _ _)) fun _ _ => ?_
    exact only_ok _ _

theorem only_tuple5E {σ0 α0 σ1 α1 σ2 α2 σ3 α3 σ4 α4 : Type} {E0 : TEncoder κ σ0 α0} {E1 : TEncoder κ σ1 α1} {E2 : TEncoder κ σ2 α2} {E3 : TEncoder κ σ3 α3} {E4 : TEncoder κ σ4 α4} (hP : Open P)
    (h0 : OnlyEnc P E0) (h1 : OnlyEnc P E1) (h2 : OnlyEnc P E2) (h3 : OnlyEnc P E3) (h4 : OnlyEnc P E4) :
    OnlyEnc P (tTuple5Encoder E0 E1 E2 E3 E4) := by
  refine ⟨fun s b e => ?_, fun s x => ?_⟩
  · simp only [tTuple5Encoder]
    have ht := only_tryEncode hP ⟨"tuple.rs", 136⟩ h0 s.1 [] b e
    generalize tTryEncode ⟨"tuple.rs", 136⟩ E0 s.1 [] b e = p at ht
    cases p with
    | ret r s => exact (ht r s rfl).state _
    | next o0 s0 =>
      simp only
      clear ht
      have ht := only_tryEncode hP ⟨"tuple.rs", 136⟩ h1 s.2.1 o0 b e
      generalize tTryEncode ⟨"tuple.rs", 136⟩ E1 s.2.1 o0 b e = p at ht
      cases p with
      | ret r s => exact (ht r s rfl).state _
      | next o1 s1 =>
        simp only
        clear ht
        have ht := only_tryEncode hP ⟨"tuple.rs", 136⟩ h2 s.2.2.1 o1 b e
        generalize tTryEncode ⟨"tuple.rs", 136⟩ E2 s.2.2.1 o1 b e = p at ht
        cases p with
        | ret r s => exact (ht r s rfl).state _
        | next o2 s2 =>
          simp only
          clear ht
          have ht := only_tryEncode hP ⟨"tuple.rs", 136⟩ h3 s.2.2.2.1 o2 b e
          generalize tTryEncode ⟨"tuple.rs", 136⟩ E3 s.2.2.2.1 o2 b e = p at ht
          cases p with
          | ret r s => exact (ht r s rfl).state _
          | next o3 s3 =>
            simp only
            clear ht
            have ht := only_tryEncode hP ⟨"tuple.rs", 136⟩ h4 s.2.2.2.2 o3 b e
            generalize tTryEncode ⟨"tuple.rs", 136⟩ E4 s.2.2.2.2 o3 b e = p at ht
            cases p with
            | ret r s => exact (ht r s rfl).state _
            | next o s' => exact only_ok _ _
  · refine only_step _ _ (only_tracked hP _ (h0.start _ _)) fun _ _ => ?_
    refine only_step _ _ (only_tracked hP _ (h1.start _ _)) fun _ _ => ?_
    refine only_step _ _ (only_tracked hP _ (h2.start _ _)) fun _ _ => ?_
    refine only_step _ _ (only_tracked hP _ (h3.start _ _)) fun _ _ => ?_
    refine only_step _ _ (only_tracked hP _ (h4.start _ _)) fun _ _ => ?_
    exact only_ok _ _

theorem only_tuple6E {σ0 α0 σ1 α1 σ2 α2 σ3 α3 σ4 α4 σ5 α5 : Type} {E0 : TEncoder κ σ0 α0} {E1 : TEncoder κ σ1 α1} {E2 : TEncoder κ σ2 α2} {E3 : TEncoder κ σ3 α3} {E4 : TEncoder κ σ4 α4} {E5 : TEncoder κ σ5 α5} (hP : Open P)
    (h0 : OnlyEnc P E0) (h1 : OnlyEnc P E1) (h2 : OnlyEnc P E2) (h3 : OnlyEnc P E3) (h4 : OnlyEnc P E4) (h5 : OnlyEnc P E5) :
    OnlyEnc P (tTuple6Encoder E0 E1 E2 E3 E4 E5) := by
  refine ⟨fun s b e => ?_, fun s x => ?_⟩
  · simp only [tTuple6Encoder]
    have ht := only_tryEncode hP ⟨"tuple.rs", 137⟩ h0 s.1 [] b e
    generalize tTryEncode ⟨"tuple.rs", 137⟩ E0 s.1 [] b e = p at ht
    cases p with
    | ret r s => exact (ht r s rfl).state _
    | next o0 s0 =>
      simp only
      clear ht
      have ht := only_tryEncode hP ⟨"tuple.rs", 137⟩ h1 s.2.1 o0 b e
      generalize tTryEncode ⟨"tuple.rs", 137⟩ E1 s.2.1 o0 b e = p at ht
      cases p with
      | ret r s => exact (ht r s rfl).state _
      | next o1 s1 =>
        simp only
        clear ht
        have ht := only_tryEncode hP ⟨"tuple.rs", 137⟩ h2 s.2.2.1 o1 b e
        generalize tTryEncode ⟨"tuple.rs", 137⟩ E2 s.2.2.1 o1 b e = p at ht
        cases p with
        | ret r s => exact (ht r s rfl).state _
        | next o2 s2 =>
          simp only
          clear ht
          have ht := only_tryEncode hP ⟨"tuple.rs", 137⟩ h3 s.2.2.2.1 o2 b e
          generalize tTryEncode ⟨"tuple.rs", 137⟩ E3 s.2.2.2.1 o2 b e = p at ht
          cases p with
          | ret r s => exact (ht r s rfl).state _
          | next o3 s3 =>
            simp only
            clear ht
            have ht := only_tryEncode hP ⟨"tuple.rs", 137⟩ h4 s.2.2.2.2.1 o3 b e
            generalize tTryEncode ⟨"tuple.rs", 137⟩ E4 s.2.2.2.2.1 o3 b e = p at ht
            cases p with
            | ret r s => exact (ht r s rfl).state _
            | next o4 s4 =>
              simp only
              clear ht
              have ht := only_tryEncode hP ⟨"tuple.rs", 137⟩ h5 s.2.2.2.2.2 o4 b e
              generalize tTryEncode ⟨"tuple.rs", 137⟩ E5 s.2.2.2.2.2 o4 b e = p at ht
              cases p with
              | ret r s => exact (ht r s rfl).state _
              | next o s' => exact only_ok _ _
  · refine only_step _ _ (only_tracked hP _ (h0.start _ _)) fun _ _ => ?_
    refine only_step _ _ (only_tracked hP _ (h1.start _ _)) fun _ _ => ?_
    refine only_step _ _ (only_tracked hP _ (h2.start _ _)) fun _ _ => ?_
    refine only_step _ _ (only_tracked hP _ (h3.start _ _)) fun _ _ => ?_
    refine only_step _ _ (only_tracked hP _ (h4.start _ _)) fun _ _ => ?_
    refine only_step _ _ (only_tracked hP _ (h5.start _ _)) fun _ _ => ?_
    exact only_ok _ _

theorem only_tuple7E {σ0 α0 σ1 α1 σ2 α2 σ3 α3 σ4 α4 σ5 α5 σ6 α6 : Type} {E0 : TEncoder κ σ0 α0} {E1 : TEncoder κ σ1 α1} {E2 : TEncoder κ σ2 α2} {E3 : TEncoder κ σ3 α3} {E4 : TEncoder κ σ4 α4} {E5 : TEncoder κ σ5 α5} {E6 : TEncoder κ σ6 α6} (hP : Open P)
    (h0 : OnlyEnc P E0) (h1 : OnlyEnc P E1) (h2 : OnlyEnc P E2) (h3 : OnlyEnc P E3) (h4 : OnlyEnc P E4) (h5 : OnlyEnc P E5) (h6 : OnlyEnc P E6) :
    OnlyEnc P (tTuple7Encoder E0 E1 E2 E3 E4 E5 E6) := by
  refine ⟨fun s b e => ?_, fun s x => ?_⟩
  · simp only [tTuple7Encoder]
    have ht := only_tryEncode hP ⟨"tuple.rs", 138⟩ h0 s.1 [] b e
    generalize tTryEncode ⟨"tuple.rs", 138⟩ E0 s.1 [] b e = p at ht
    cases p with
    | ret r s => exact (ht r s rfl).state _
    | next o0 s0 =>
      simp only
      clear ht
      have ht := only_tryEncode hP ⟨"tuple.rs", 138⟩ h1 s.2.1 o0 b e
      generalize tTryEncode ⟨"tuple.rs", 138⟩ E1 s.2.1 o0 b e = p at ht
      cases p with
      | ret r s => exact (ht r s rfl).state _
      | next o1 s1 =>
        simp only
        clear ht
        have ht := only_tryEncode hP ⟨"tuple.rs", 138⟩ h2 s.2.2.1 o1 b e
        generalize tTryEncode ⟨"tuple.rs", 138⟩ E2 s.2.2.1 o1 b e = p at ht
        cases p with
        | ret r s => exact (ht r s rfl).state _
        | next o2 s2 =>
          simp only
          clear ht
          have ht := only_tryEncode hP ⟨"tuple.rs", 138⟩ h3 s.2.2.2.1 o2 b e
          generalize tTryEncode ⟨"tuple.rs", 138⟩ E3 s.2.2.2.1 o2 b e = p at ht
          cases p with
          | ret r s => exact (ht r s rfl).state _
          | next o3 s3 =>
            simp only
            clear ht
            have ht := only_tryEncode hP ⟨"tuple.rs", 138⟩ h4 s.2.2.2.2.1 o3 b e
            generalize tTryEncode ⟨"tuple.rs", 138⟩ E4 s.2.2.2.2.1 o3 b e = p at ht
            cases p with
            | ret r s => exact (ht r s rfl).state _
            | next o4 s4 =>
              simp only
              clear ht
              have ht := only_tryEncode hP ⟨"tuple.rs", 138⟩ h5 s.2.2.2.2.2.1 o4 b e
              generalize tTryEncode ⟨"tuple.rs", 138⟩ E5 s.2.2.2.2.2.1 o4 b e = p at ht
              cases p with
              | ret r s => exact (ht r s rfl).state _
              | next o5 s5 =>
                simp only
                clear ht
                have ht := only_tryEncode hP ⟨"tuple.rs", 138⟩ h6 s.2.2.2.2.2.2 o5 b e
                generalize tTryEncode ⟨"tuple.rs", 138⟩ E6 s.2.2.2.2.2.2 o5 b e = p at ht
                cases p with
                | ret r s => exact (ht r s rfl).state _
                | next o s' => exact only_ok _ _
  · refine only_step _ _ (only_tracked hP _ (h0.start _ _)) fun _ _ => ?_
    refine only_step _ _ (only_tracked hP _ (h1.start _ _)) fun _ _ => ?_
    refine only_step _ _ (only_tracked hP _ (h2.start _ _)) fun _ _ => ?_
    refine only_step _ _ (only_tracked hP _ (h3.start _ _)) fun _ _ => ?_
    refine only_step _ _ (only_tracked hP _ (h4.start _ _)) fun _ _ => ?_
    refine only_step _ _ (only_tracked hP _ (h5.start _ _)) fun _ _ => ?_
    refine only_step _ _ (only_tracked hP _ (h6.start _ _)) fun _ _ => ?_
    exact only_ok _ _

theorem only_tuple8E {σ0 α0 σ1 α1 σ2 α2 σ3 α3 σ4 α4 σ5 α5 σ6 α6 σ7 α7 : Type} {E0 : TEncoder κ σ0 α0} {E1 : TEncoder κ σ1 α1} {E2 : TEncoder κ σ2 α2} {E3 : TEncoder κ σ3 α3} {E4 : TEncoder κ σ4 α4} {E5 : TEncoder κ σ5 α5} {E6 : TEncoder κ σ6 α6} {E7 : TEncoder κ σ7 α7} (hP : Open P)
    (h0 : OnlyEnc P E0) (h1 : OnlyEnc P E1) (h2 : OnlyEnc P E2) (h3 : OnlyEnc P E3) (h4 : OnlyEnc P E4) (h5 : OnlyEnc P E5) (h6 : OnlyEnc P E6) (h7 : OnlyEnc P E7) :
    OnlyEnc P (tTuple8Encoder E0 E1 E2 E3 E4 E5 E6 E7) := by
  refine ⟨fun s b e => ?_, fun s x => ?_⟩
  · simp only [tTuple8Encoder]
    have ht := only_tryEncode hP ⟨"tuple.rs", 139⟩ h0 s.1 [] b e
    generalize tTryEncode ⟨"tuple.rs", 139⟩ E0 s.1 [] b e = p at ht
    cases p with
    | ret r s => exact (ht r s rfl).state _
    | next o0 s0 =>
      simp only
      clear ht
      have ht := only_tryEncode hP ⟨"tuple.rs", 139⟩ h1 s.2.1 o0 b e
      generalize tTryEncode ⟨"tuple.rs", 139⟩ E1 s.2.1 o0 b e = p at ht
      cases p with
      | ret r s => exact (ht r s rfl).state _
      | next o1 s1 =>
        simp only
        clear ht
        have ht := only_tryEncode hP ⟨"tuple.rs", 139⟩ h2 s.2.2.1 o1 b e
        generalize tTryEncode ⟨"tuple.rs", 139⟩ E2 s.2.2.1 o1 b e = p at ht
        cases p with
        | ret r s => exact (ht r s rfl).state _
        | next o2 s2 =>
          simp only
          clear ht
          have ht := only_tryEncode hP ⟨"tuple.rs", 139⟩ h3 s.2.2.2.1 o2 b e
          generalize tTryEncode ⟨"tuple.rs", 139⟩ E3 s.2.2.2.1 o2 b e = p at ht
          cases p with
          | ret r s => exact (ht r s rfl).state _
          | next o3 s3 =>
            simp only
            clear ht
            have ht := only_tryEncode hP ⟨"tuple.rs", 139⟩ h4 s.2.2.2.2.1 o3 b e
            generalize tTryEncode ⟨"tuple.rs", 139⟩ E4 s.2.2.2.2.1 o3 b e = p at ht
            cases p with
            | ret r s => exact (ht r s rfl).state _
            | next o4 s4 =>
              simp only
              clear ht
              have ht := only_tryEncode hP ⟨"tuple.rs", 139⟩ h5 s.2.2.2.2.2.1 o4 b e
              generalize tTryEncode ⟨"tuple.rs", 139⟩ E5 s.2.2.2.2.2.1 o4 b e = p at ht
              cases p with
              | ret r s => exact (ht r s rfl).state _
              | next o5 s5 =>
                simp only
                clear ht
                have ht := only_tryEncode hP ⟨"tuple.rs", 139⟩ h6 s.2.2.2.2.2.2.1 o5 b e
                generalize tTryEncode ⟨"tuple.rs", 139⟩ E6 s.2.2.2.2.2.2.1 o5 b e = p at ht
                cases p with
                | ret r s => exact (ht r s rfl).state _
                | next o6 s6 =>
                  simp only
                  clear ht
                  have ht := only_tryEncode hP ⟨"tuple.rs", 139⟩ h7 s.2.2.2.2.2.2.2 o6 b e
                  generalize tTryEncode ⟨"tuple.rs", 139⟩ E7 s.2.2.2.2.2.2.2 o6 b e = p at ht
                  cases p with
                  | ret r s => exact (ht r s rfl).state _
                  | next o s' => exact only_ok _ _
  · refine only_step _ _ (only_tracked hP _ (h0.start _ _)) fun _ _ => ?_
    refine only_step _ _ (only_tracked hP _ (h1.start _ _)) fun _ _ => ?_
    refine only_step _ _ (only_tracked hP _ (h2.start _ _)) fun _ _ => ?_
    refine only_step _ _ (only_tracked hP _ (h3.start _ _)) fun _ _ => ?_
    refine only_step _ _ (only_tracked hP _ (h4.start _ _)) fun _ _ => ?_
    refine only_step _ _ (only_tracked hP _ (h5.start _ _)) fun _ _ => ?_
    refine only_step _ _ (only_tracked hP _ (h6.start _ _)) fun _ _ => ?_
    refine only_step _ _ (only_tracked hP _ (h7.start _ _)) fun _ _ => ?_
    exact only_ok _ _

theorem tracedEnc_only {σ α : Type} {O : TError κ → Prop} {E : TEncoder κ σ α} {M : Encoder σ α} (h : TracedEnc O E M) :
    OnlyEnc (Arrives O) E := by
  induction h with
  | part E => exact only_partE E
  | bytes => exact only_bytes (arrives_open _)
  | mapErr g g' hg _ ih => exact only_mapErrE ih g fun x hx => ⟨g x, .inl ⟨x, hx, rfl⟩, .refl _⟩
  | mapFrom f _ ih => exact only_mapFrom ih f
  | tryMapFrom f _ ih =>
    refine only_tryMapFrom (arrives_open _) (ih.mono fun x => Arrives.mono fun _ => .inl) f fun a x hx => ?_
    exact ⟨x, .inl (.inr ⟨a, hx⟩), .refl x⟩
  | «repeat» _ ih => exact only_repeat (arrives_open _) ih
  | optional _ ih => exact only_optional (arrives_open _) ih
  | length _ ih => exact only_lengthE (arrives_open _) ih
  | maxBytes _ ih => exact only_maxBytesE (arrives_open _) ih
  | preEncode zero _ ih => exact only_preEncode (arrives_open _) ih zero
  | slice _ ih => exact only_sliceE (arrives_open _) ih
  | last _ ih => exact only_last (arrives_open _) ih
  | pair _ _ ih0 ih1 =>
    exact only_pairE (arrives_open _) (ih0.mono fun x => Arrives.mono fun _ => .inl)
      (ih1.mono fun x => Arrives.mono fun _ => .inr)
  | tuple3 _ _ _ ih0 ih1 ih2 =>
    exact only_tuple3E (arrives_open _) (ih0.mono fun x => Arrives.mono fun _ h => .inl h)
      (ih1.mono fun x => Arrives.mono fun _ h => .inr (.inl h))
      (ih2.mono fun x => Arrives.mono fun _ h => .inr (.inr h))
  | tuple4 _ _ _ _ ih0 ih1 ih2 ih3 =>
    exact only_tuple4E (arrives_open _) (ih0.mono fun x => Arrives.mono fun _ h => .inl h)
      (ih1.mono fun x => Arrives.mono fun _ h => .inr (.inl h))
      (ih2.mono fun x => Arrives.mono fun _ h => .inr (.inr (.inl h)))
      (ih3.mono fun x => Arrives.mono fun _ h => .inr (.inr (.inr h)))
  | tuple5 _ _ _ _ _ ih0 ih1 ih2 ih3 ih4 =>
    exact only_tuple5E (arrives_open _) (ih0.mono fun x => Arrives.mono fun _ h => .inl h)
      (ih1.mono fun x => Arrives.mono fun _ h => .inr (.inl h))
      (ih2.mono fun x => Arrives.mono fun _ h => .inr (.inr (.inl h)))
      (ih3.mono fun x => Arrives.mono fun _ h => .inr (.inr (.inr (.inl h))))
      (ih4.mono fun x => Arrives.mono fun _ h => .inr (.inr (.inr (.inr h))))
  | tuple6 _ _ _ _ _ _ ih0 ih1 ih2 ih3 ih4 ih5 =>
    exact only_tuple6E (arrives_open _) (ih0.mono fun x => Arrives.mono fun _ h => .inl h)
      (ih1.mono fun x => Arrives.mono fun _ h => .inr (.inl h))
      (ih2.mono fun x => Arrives.mono fun _ h => .inr (.inr (.inl h)))
      (ih3.mono fun x => Arrives.mono fun _ h => .inr (.inr (.inr (.inl h))))
      (ih4.mono fun x => Arrives.mono fun _ h => .inr (.inr (.inr (.inr (.inl h)))))
      (ih5.mono fun x => Arrives.mono fun _ h => .inr (.inr (.inr (.inr (.inr h)))))
  | tuple7 _ _ _ _ _ _ _ ih0 ih1 ih2 ih3 ih4 ih5 ih6 =>
    exact only_tuple7E (arrives_open _) (ih0.mono fun x => Arrives.mono fun _ h => .inl h)
      (ih1.mono fun x => Arrives.mono fun _ h => .inr (.inl h))
      (ih2.mono fun x => Arrives.mono fun _ h => .inr (.inr (.inl h)))
      (ih3.mono fun x => Arrives.mono fun _ h => .inr (.inr (.inr (.inl h))))
      (ih4.mono fun x => Arrives.mono fun _ h => .inr (.inr (.inr (.inr (.inl h)))))
      (ih5.mono fun x => Arrives.mono fun _ h => .inr (.inr (.inr (.inr (.inr (.inl h))))))
      (ih6.mono fun x => Arrives.mono fun _ h => .inr (.inr (.inr (.inr (.inr (.inr h))))))
  | tuple8 _ _ _ _ _ _ _ _ ih0 ih1 ih2 ih3 ih4 ih5 ih6 ih7 =>
    exact only_tuple8E (arrives_open _) (ih0.mono fun x => Arrives.mono fun _ h => .inl h)
      (ih1.mono fun x => Arrives.mono fun _ h => .inr (.inl h))
      (ih2.mono fun x => Arrives.mono fun _ h => .inr (.inr (.inl h)))
      (ih3.mono fun x => Arrives.mono fun _ h => .inr (.inr (.inr (.inl h))))
      (ih4.mono fun x => Arrives.mono fun _ h => .inr (.inr (.inr (.inr (.inl h)))))
      (ih5.mono fun x => Arrives.mono fun _ h => .inr (.inr (.inr (.inr (.inr (.inl h))))))
      (ih6.mono fun x => Arrives.mono fun _ h => .inr (.inr (.inr (.inr (.inr (.inr (.inl h)))))))
      (ih7.mono fun x => Arrives.mono fun _ h => .inr (.inr (.inr (.inr (.inr (.inr (.inr h)))))))

end Bytecodec
