import Verif.Lemmas.Join
import Verif.Lemmas.Frames
import Verif.Lemmas.Utf8
import Verif.Lemmas.OneShot
import Verif.Lemmas.TupleNested
/-!
# Sequential composition in terms of the caller's loop
-/
namespace Bytecodec

open Spec

variable {σ τ α β : Type}

/-! ## Pairs and `and_then` -/

theorem feedOne_pair {σ0 α0 σ1 α1 : Type} {D0 : Decoder σ0 α0} {D1 : Decoder σ1 α1} {s0 s0' : σ0} {s1 s1' : σ1}
    {b : Bytes} {e : Eos} {n : Nat} {x0 : α0} {x1 : α1}
    (hb : ∀ n0 y t, feed D0 s0 [(b, e)] = some (n0, y, t) → n0 ≤ b.length) :
    feed (tupleDecoder2 D0 D1) (s0, s1) [(b, e)] = some (n, (x0, x1), (s0', s1')) ↔
      ∃ n0 n1, n = n0 + n1 ∧ feed D0 s0 [(b, e)] = some (n0, x0, s0') ∧
        feed D1 s1 [(b.drop n0, e)] = some (n1, x1, s1') := by
  rw [feed_one]
  constructor
  · rintro ⟨⟨t0, t1⟩, h⟩
    rw [pair_item] at h
    obtain ⟨n0, h0, h1, h2⟩ := h
    have hf := feed_one.2 ⟨t0, h0⟩
    obtain ⟨h3, h4⟩ := (tryDecode_at (hb _ _ _ hf)).1 h1
    refine ⟨n0, n - n0, by omega, hf, feed_one.2 ⟨t1, h4, h2⟩⟩
  · rintro ⟨n0, n1, rfl, h0, h1⟩
    have hle := hb _ _ _ h0
    obtain ⟨t0, h0⟩ := feed_one.1 h0
    obtain ⟨t1, h1⟩ := feed_one.1 h1
    refine ⟨(t0, t1), pair_item.2 ⟨n0, h0, (tryDecode_at hle).2 ⟨by omega, ?_⟩, h1.2⟩⟩
    rw [Nat.add_sub_cancel_left]
    exact h1.1

theorem feedOne_andThen {σ0 α0 σ1 α1 : Type} {D0 : Decoder σ0 α0} {D1 : Decoder σ1 α1} {f : α0 → σ1} {s0 : σ0}
    {b : Bytes} {e : Eos} {n : Nat} {x : α1} {s' : σ0 × Option σ1}
    (hb : ∀ n0 y t, feed D0 s0 [(b, e)] = some (n0, y, t) → n0 ≤ b.length) :
    feed (andThenDecoder D0 D1 f) (s0, none) [(b, e)] = some (n, x, s') ↔
      ∃ n0 y n1 s0' s1', n = n0 + n1 ∧ feed D0 s0 [(b, e)] = some (n0, y, s0') ∧
        feed D1 (f y) [(b.drop n0, e)] = some (n1, x, s1') ∧ s' = (s0', none) := by
  rw [feed_one]
  constructor
  · rintro ⟨t, h⟩
    rw [item_busy rfl] at h
    obtain ⟨h1, h2, h3⟩ := h
    obtain ⟨n0, t0, y, s0', t1, h4, h5, rfl⟩ := andThen_none_idle h1 h2
    have hf := feed_one.2 ⟨t0, h4⟩
    obtain ⟨h6, h7⟩ := (tryDecode_at (hb _ _ _ hf)).1 h5
    obtain ⟨h8, rfl⟩ := andThen_fin.1 h3
    exact ⟨n0, y, n - n0, s0', _, by omega, hf, feed_one.2 ⟨t1, h7, Prod.ext h8 rfl⟩, rfl⟩
  · rintro ⟨n0, y, n1, s0', s1', rfl, h0, h1, rfl⟩
    have hle := hb _ _ _ h0
    obtain ⟨t0, h0⟩ := feed_one.1 h0
    obtain ⟨t1, h1⟩ := feed_one.1 h1
    have h2 : tryDecode D1 (f y) n0 b e = .next (n0 + n1) t1 :=
      (tryDecode_at hle).2 ⟨by omega, by rw [Nat.add_sub_cancel_left]; exact h1.1⟩
    refine ⟨(s0', some t1), (item_busy rfl).2 ⟨?_, show D1.isIdle t1 = true from tryDecode_next_idle h2, ?_⟩⟩
    · rw [andThen_none_next h0, h2]; rfl
    · exact andThen_fin.2 ⟨by rw [h1.2], rfl⟩

theorem feed_bound {ok : Shape → Prop} {p q : Bool} {D : Decoder σ α} {s : σ} (h : Streamable ok p q D s)
    {b : Bytes} {e : Eos} {n : Nat} {x : α} {t : σ} (hf : feed D s [(b, e)] = some (n, x, t)) :
    n ≤ b.length := by
  obtain ⟨I, hI, hIs⟩ := streamable_splits h
  obtain ⟨u, hu⟩ := feed_one.1 hf
  exact hI.bound hIs hu

/-! ## UTF-8 -/

theorem utf8_fin {D : Decoder σ Bytes} {s s' : σ} {x : String} :
    (utf8Decoder D).finish s = (.ok x, s') ↔ D.finish s = (.ok (utf8Bytes x), s') := by
  simp only [utf8Decoder]
  rcases D.finish s with ⟨r, t⟩
  cases r with
  | ok b =>
    simp only [Res.step]
    cases h : fromUtf8 b with
    | some y =>
      have h1 := fromUtf8_some.1 h
      subst h1
      simp only [Prod.mk.injEq, Res.ok.injEq]
      constructor
      · rintro ⟨rfl, rfl⟩; exact ⟨rfl, rfl⟩
      · rintro ⟨h1, rfl⟩
        have := fromUtf8_utf8Bytes x
        rw [← h1, h] at this
        exact ⟨Option.some.inj this, rfl⟩
    | none =>
      simp only [Prod.mk.injEq, Res.ok.injEq]
      constructor
      · rintro ⟨h1, _⟩; cases h1
      · rintro ⟨rfl, _⟩
        rw [fromUtf8_utf8Bytes] at h
        cases h
  | _ => simp [Res.step]

theorem decRun_utf8 {D : Decoder σ Bytes} {stream : Bytes} {e : Eos} {s₀ s : σ} {pos : Nat} {items : List String}
    (h : DecRun (utf8Decoder D) stream e s₀ s pos items) :
    DecRun D stream e s₀ s pos (items.map utf8Bytes) := by
  induction h with
  | new => exact .new
  | decode _ hi ho hd ih => exact .decode ih hi ho hd
  | finish _ hi hf ih =>
    rw [List.map_append]
    exact .finish ih hi (utf8_fin.1 hf)

theorem utf8Bytes_inj {x y : String} (h : utf8Bytes x = utf8Bytes y) : x = y := by
  have := fromUtf8_utf8Bytes x
  rw [h, fromUtf8_utf8Bytes] at this
  exact (Option.some.inj this).symm

theorem map_utf8_inj : ∀ {xs ys : List String}, xs.map utf8Bytes = ys.map utf8Bytes → xs = ys
  | [], [], _ => rfl
  | [], _ :: _, h => by cases h
  | _ :: _, [], h => by cases h
  | x :: xs, y :: ys, h => by
    simp only [List.map_cons, List.cons.injEq] at h
    rw [utf8Bytes_inj h.1, map_utf8_inj h.2]

theorem receives_utf8 {D : Decoder σ Bytes} {s₀ : σ} {stream : Bytes} {e : Eos} {xs : List String}
    {size : Bytes → Nat} (h : Receives D s₀ stream e (xs.map utf8Bytes) size) :
    Receives (utf8Decoder D) s₀ stream e xs (fun x => size (utf8Bytes x)) := by
  have sum : ∀ l : List String, (l.map fun x => size (utf8Bytes x)) = (l.map utf8Bytes).map size := by
    intro l; simp
  constructor
  · intro s pos items hr
    have := h.inOrder (decRun_utf8 hr)
    rw [List.length_map, List.length_map, ← List.map_take, ← List.map_take] at this
    exact map_utf8_inj this
  · rintro s pos items x more hr hm hi
    have := h.ready (x := utf8Bytes x) (more := more.map utf8Bytes) (decRun_utf8 hr) (by rw [hm]; simp) hi
    refine ⟨?_, ?_⟩
    · obtain ⟨s', h1⟩ := this.1
      exact ⟨s', utf8_fin.2 h1⟩
    · rw [this.2, sum]; simp
  · rintro s pos items x more c ec hr hm hi ho
    obtain ⟨n, s', h1, h2, h3, h4⟩ := h.going (x := utf8Bytes x) (more := more.map utf8Bytes)
      (decRun_utf8 hr) (by rw [hm]; simp) hi ho
    refine ⟨n, s', h1, h2, h3, ?_⟩
    rw [sum]
    simpa using h4
  · rintro s pos items x more hr hm hi
    exact h.complete (x := utf8Bytes x) (more := more.map utf8Bytes) (decRun_utf8 hr) (by rw [hm]; simp) hi

/-! ## `decode_from_bytes` -/

theorem matched_fromBytes {strict delim again : Bool} {E : Encoder σ α} {sE : σ} {D : Decoder τ α} {sD : τ}
    {dom enc} (h : Matched strict delim again E sE D sD dom enc) {x : α} {b : Bytes} (hd : dom x)
    (hb : enc x = .ok b) (hl : b.length < 2 ^ 64) : ∃ s', decodeFromBytes D sD b = (.ok x, s') := by
  obtain ⟨F, hF, hR⟩ := matched_reads h
  have he : EosSane (Eos.new true) b.length := by
    intro n hn
    simp only [Eos.new, if_true, ByteCount.finite.injEq] at hn
    omega
  have hr : (Eos.new true).isReached = true := rfl
  obtain ⟨s', hf, _⟩ := hR.item (tail := []) (e := Eos.new true) hF ⟨hd, hb⟩ (by simpa using he) (.inr ⟨rfl, hr⟩)
  rw [List.append_nil] at hf
  obtain ⟨t, ht⟩ := feed_one.1 hf
  cases hi : D.isIdle sD with
  | false =>
    rw [item_busy hi] at ht
    refine ⟨s', ?_⟩
    rw [decodeFromBytes, ht.1]
    simp [Res.step, ht.2.2]
  | true =>
    rw [item_quiet hi] at ht
    have hb0 : b = [] := List.eq_nil_of_length_eq_zero ht.1
    subst hb0
    have := hR.idle (b := []) (e := Eos.new true) hF ⟨hd, hb⟩ hi he (.inr ⟨rfl, .inl hr⟩)
    refine ⟨s', ?_⟩
    rw [decodeFromBytes, this]
    simp [Res.step, ht.2.2]

/-! ## Repetition -/

theorem runs_loopN_more {D : Decoder σ α} {buf : Bytes} {e : Eos} {b : Bytes} {s s' : σ} {xs : List α}
    {n : Nat} (h : Runs D e b s xs n s') (k : Nat) : ∀ {off items}, off ≤ buf.length → buf.drop off = b →
      off + n = buf.length →
      collectNLoop D buf e (xs.length + k + 1) off s items = .done buf.length s' (items ++ xs) (k + 1) := by
  induction h with
  | stop b s =>
    intro off items ho hb hn
    simp only [List.length_nil, Nat.zero_add, Nat.add_zero] at hn ⊢
    rw [collectNLoop, if_neg (by omega), hn]
    simp
  | @step b s t s1 s2 x xs n m hne hit hn hr ih =>
    intro off items ho hb hnm
    subst hb
    have hlt : off < buf.length := by
      have := List.length_pos_iff.2 hne
      simp at this
      omega
    simp only [List.length_drop] at hn
    rw [List.length_cons, show xs.length + 1 + k + 1 = (xs.length + k + 1) + 1 by omega, collectNLoop, if_pos hlt]
    have : tryDecode D s off buf e = .next (off + n) t :=
      (tryDecode_at ho).2 ⟨by omega, by rw [Nat.add_sub_cancel_left]; exact hit.1⟩
    rw [this]
    simp only
    rw [hit.2]
    simp only
    rw [ih (by omega) (by rw [List.drop_drop]) (by omega)]
    simp

/-- Too few items before the end of the stream. -/
theorem feedErr_collectN {D : Decoder σ α} {I : σ → Prop} (hI : Splits true D I) {chunks : List (Bytes × Eos)}
    {b : Bytes} {e : Eos} (hc : Schedule chunks b e) (he : e.isReached = true) :
    ∀ {i i' : σ} {xs items : List α} {r : Nat}, I i → Runs D e b i xs b.length i' → xs.length < r →
      feedErr (collectNDecoder D) ⟨i, r, items⟩ chunks = some .unexpectedEos := by
  have busy : ∀ {i : σ} {r : Nat} {items : List α}, 0 < r →
      (collectNDecoder D).isIdle (⟨i, r, items⟩ : CollectNState σ α) = false := by
    intro i r items hr
    simp [collectNDecoder]
    omega
  have last : ∀ {b : Bytes} {e : Eos} {i i' : σ} {xs items : List α} {r : Nat} {rest}, e.isReached = true →
      Runs D e b i xs b.length i' → xs.length < r →
      feedErr (collectNDecoder D) ⟨i, r, items⟩ ((b, e) :: rest) = some .unexpectedEos := by
    intro b e i i' xs items r rest he hr hlt
    have h := runs_loopN_more (buf := b) hr (r - xs.length - 1) (off := 0) (items := items) (by omega) rfl (by omega)
    rw [show xs.length + (r - xs.length - 1) + 1 = r by omega] at h
    rw [feedErr, if_neg (by simp [busy (show 0 < r by omega)])]
    simp only [collectNDecoder]
    rw [h]
    simp [he]
  induction hc with
  | last b e => intro i i' xs items r _ hr hlt; exact last he hr hlt
  | @cons cs rest e c ec hec _ ih =>
    intro i i' xs items r hi hr hlt
    cases hre : ec.isReached with
    | true =>
      have he' : ec = eosShift e rest.length := by
        rcases hec with h | h
        · rw [h] at hre; simp [Eos.new, Eos.isReached] at hre
        · exact h
      rw [he'] at hre
      obtain ⟨h0, h1⟩ := eosShift_reached hre
      have h0 : rest = [] := List.eq_nil_of_length_eq_zero h0
      subst h0
      rw [he', h1]
      rw [List.append_nil] at hr
      exact last he hr hlt
    | false =>
      have go : ∀ {ys : List α} {u : σ}, Stops D ec c i ys u → ys.length < r →
          feedErr (collectNDecoder D) ⟨i, r, items⟩ ((c, ec) :: cs) =
            feedErr (collectNDecoder D) ⟨u, r - ys.length, items ++ ys⟩ cs := by
        intro ys u hst hys
        rw [feedErr, if_neg (by simp [busy (show 0 < r by omega)])]
        rw [stops_collectN (s := ⟨i, r, items⟩) hst hys hre]
        simp
      rcases hr.split hI hec hre rfl hi with k | ⟨k1, k2, ys, zs, u, k3, k4, k5, k6, k7⟩
      · have hle := k.le
        rw [List.length_append] at hle
        have h0 : rest = [] := List.eq_nil_of_length_eq_zero (by omega)
        subst h0
        rw [go (k.stops (by simp)) hlt]
        exact ih he (xs := []) (k.inv hI.steps hi) (.stop _ _) (by simp; omega)
      · subst k3
        rw [List.length_append] at hlt
        rw [go k5 (by omega)]
        refine ih he k6 (xs := zs) (i' := i') ?_ (by omega)
        have : (c ++ rest).length - c.length = rest.length := by simp
        rw [this] at k7
        exact k7

end Bytecodec
