import Verif.Lemmas.Reads
import Verif.Lemmas.Writes
import Verif.Lemmas.Utf8
import Verif.Spec.Matched
import Verif.Spec.Stream
/-!
# Matching pairs round trip
-/
namespace Bytecodec

open Spec

variable {σ τ α β : Type}

/-! ## Receiving a stream of items -/

theorem drop_of_drop {stream c r : Bytes} {pos : Nat} (h : stream.drop pos = c ++ r) :
    stream.drop (pos + c.length) = r := by
  rw [← List.drop_drop, h, List.drop_left]

section

variable {p : Bool} {D : Decoder σ α} {I : σ → Prop} {stream : Bytes} {e : Eos}

/-- The message `x` ends after `n` more bytes. -/
def Coming (D : Decoder σ α) (I : σ → Prop) (stream : Bytes) (e : Eos) (s : σ) (pos : Nat) (x : α) (n : Nat)
    (s' : σ) : Prop :=
  I s ∧ ∃ t, Item D s (stream.drop pos) e n t x s'

theorem coming_step (hI : Splits p D I) {s s' : σ} {pos n : Nat} {x : α} {c : Bytes} {ec : Eos}
    (h : Coming D I stream e s pos x n s') (hs : D.isIdle s = false) (ho : Offer stream e pos c ec) :
    ∃ m t, D.decode s c ec = (.ok m, t) ∧ m ≤ c.length ∧ m ≤ n ∧ (D.isIdle t = false → m = c.length) ∧
      (D.isIdle t = true → m = n ∧ D.finish t = (.ok x, s')) ∧
      (D.isIdle t = false → Coming D I stream e t (pos + m) x (n - m) s') := by
  obtain ⟨rest, hc, he⟩ := ho
  obtain ⟨hIs, t, hi⟩ := h
  rw [hc] at hi
  have done : ∀ {b ee}, b.length ≤ c.length → Item D s b ee n t x s' → D.decode s b ee = (.ok n, t) ∧
      n ≤ c.length ∧ n ≤ n ∧ (D.isIdle t = false → n = c.length) ∧
      (D.isIdle t = true → n = n ∧ D.finish t = (.ok x, s')) ∧
      (D.isIdle t = false → Coming D I stream e t (pos + n) x (n - n) s') := by
    intro b ee hb hit
    have hle := hI.bound hIs hit
    rw [item_busy hs] at hit
    refine ⟨hit.1, by omega, Nat.le_refl _, ?_, fun _ => ⟨rfl, hit.2.2⟩, ?_⟩
    · intro h; rw [hit.2.1] at h; cases h
    · intro h; rw [hit.2.1] at h; cases h
  cases hr : ec.isReached with
  | true =>
    have he' : ec = eosShift e rest.length := by
      rcases he with h | h
      · rw [h] at hr; simp [Eos.new, Eos.isReached] at hr
      · exact h
    rw [he'] at hr
    obtain ⟨h0, h1⟩ := eosShift_reached hr
    have h0 : rest = [] := List.eq_nil_of_length_eq_zero h0
    subst h0
    rw [List.append_nil] at hi
    rw [he', h1]
    exact ⟨n, t, done (Nat.le_refl _) hi⟩
  | false =>
    rcases hI.split hIs hi he hr with k | ⟨_, k2, u, k3, k4, k5⟩
    · exact ⟨n, t, done (Nat.le_refl _) k⟩
    · rw [tryDecode_ret_iff hs] at k3
      refine ⟨c.length, u, k3.1, Nat.le_refl _, k2, fun _ => rfl, ?_, fun _ => ⟨k4, t, ?_⟩⟩
      · intro h; rw [k3.2] at h; cases h
      · rw [drop_of_drop hc]; exact k5

theorem coming_idle (_ : Splits p D I) {s s' : σ} {pos n : Nat} {x : α}
    (h : Coming D I stream e s pos x n s') (hs : D.isIdle s = true) : n = 0 ∧ D.finish s = (.ok x, s') := by
  obtain ⟨_, t, hi⟩ := h
  rw [item_quiet hs] at hi
  exact ⟨hi.1, hi.2.2⟩

end

/-- The messages still to come, with their encodings, and what follows them. -/
inductive Todo (wire : α → Bytes → Prop) (size : α → Nat) (tail : Bytes) : List α → Bytes → Prop
  | nil : Todo wire size tail [] tail
  | cons {x : α} {b : Bytes} {xs : List α} {bs : Bytes} : wire x b → size x = b.length →
      Todo wire size tail xs bs → Todo wire size tail (x :: xs) (b ++ bs)

theorem receives_of {p delim again : Bool} {D : Decoder σ α} {I F : σ → Prop} {wire : α → Bytes → Prop}
    {size : α → Nat} (hI : Splits p D I) (hR : Reads delim again D F wire) {s₀ : σ} (hs₀ : I s₀ ∧ F s₀)
    {stream tail : Bytes} {e : Eos} {msgs : List α} (he : EosSane e stream.length)
    (ht : Todo wire size tail msgs stream) (ha : delim = true ∧ again = true ∨ msgs.length ≤ 1)
    (hd : delim = true ∨ tail = [] ∧ e.isReached = true) :
    Receives D s₀ stream e msgs size := by
  -- a fresh decoder in front of the messages `x :: more`
  have fresh : ∀ {s pos items x more}, I s → F s → msgs = items ++ x :: more →
      Todo wire size tail (x :: more) (stream.drop pos) →
      ∃ n s', Coming D I stream e s pos x n s' ∧ n = size x ∧ I s' ∧ (more ≠ [] → F s') ∧
        Todo wire size tail more (stream.drop (pos + n)) := by
    intro s pos items x more hIs hFs hm htodo
    generalize hbs : stream.drop pos = bs at htodo
    generalize hxs : x :: more = xs at htodo
    cases htodo with
    | nil => cases hxs
    | @cons x' b xs' bs' hw hsz hrest =>
      cases hxs
      have hsane : EosSane e (b ++ bs').length := by
        have : (b ++ bs').length ≤ stream.length := by rw [← hbs]; simp
        exact sane_le he this
      have hdd : delim = true ∨ bs' = [] ∧ e.isReached = true := by
        rcases hd with h | ⟨h1, h2⟩
        · exact .inl h
        · rcases ha with h | h
          · exact .inl h.1
          · right
            rw [hm] at h
            simp at h
            have hmo : more = [] := List.eq_nil_of_length_eq_zero (by omega)
            subst hmo
            cases hrest
            exact ⟨h1, h2⟩
      obtain ⟨t, s', h1, h2⟩ := hR.take hFs hw hsane hdd
      refine ⟨b.length, s', ⟨hIs, t, by rw [hbs]; exact h1⟩, hsz.symm, hI.again hIs h1, ?_, ?_⟩
      · intro hne
        rcases ha with h | h
        · exact h2 h.2
        · rw [hm] at h
          simp at h
          exact absurd (List.eq_nil_of_length_eq_zero (by omega)) hne
      · rw [drop_of_drop hbs]; exact hrest
  have inv : ∀ {s pos items}, DecRun D stream e s₀ s pos items →
      (∃ x more n s', msgs = items ++ x :: more ∧
        (Coming D I stream e s pos x n s' ∨ D.isIdle s = true ∧ n = 0 ∧ D.finish s = (.ok x, s')) ∧
        pos + n = ((items ++ [x]).map size).sum ∧ I s' ∧ (more ≠ [] → F s') ∧
        Todo wire size tail more (stream.drop (pos + n))) ∨ msgs <+: items := by
    intro s pos items hr
    induction hr with
    | new =>
      cases hm : msgs with
      | nil => exact .inr (List.prefix_refl _)
      | cons x more =>
        obtain ⟨n, s', h1, h2, h3, h4, h5⟩ := fresh (pos := 0) (items := []) hs₀.1 hs₀.2 hm (hm ▸ ht)
        exact .inl ⟨x, more, n, s', rfl, .inl h1, by simp [h2], h3, h4, h5⟩
    | @decode s s' pos n items c ec _ hi ho hdec ih =>
      rcases ih with ⟨x, more, m, s'', h1, h2, h3, h4, h5, h6⟩ | h
      · rcases h2 with h2 | ⟨h2, _⟩
        · obtain ⟨k, t, k1, k2, k3, k4, k5, k6⟩ := coming_step hI h2 hi ho
          rw [k1] at hdec
          cases hdec
          left
          refine ⟨x, more, m - n, s'', h1, ?_, by omega, h4, h5, ?_⟩
          · cases hi' : D.isIdle s' with
            | true =>
              obtain ⟨e1, e2⟩ := k5 hi'
              exact .inr ⟨rfl, by omega, e2⟩
            | false => exact .inl (k6 hi')
          · rw [show pos + n + (m - n) = pos + m by omega]; exact h6
        · rw [h2] at hi; cases hi
      · exact .inr h
    | @finish s s' pos items x _ hi hf ih =>
      rcases ih with ⟨x', more, m, s'', h1, h2, h3, h4, h5, h6⟩ | h
      · have key : m = 0 ∧ D.finish s = (.ok x', s'') := by
          rcases h2 with h2 | ⟨_, h2⟩
          · exact coming_idle hI h2 hi
          · exact h2
        rw [key.2] at hf
        cases hf
        obtain ⟨rfl, _⟩ := key
        cases more with
        | nil => right; rw [h1]; exact List.prefix_refl _
        | cons y more =>
          left
          obtain ⟨n, s1, g1, g2, g3, g4, g5⟩ := fresh (pos := pos) (items := items ++ [x])
            h4 (h5 (by simp)) (by rw [h1]; simp) h6
          refine ⟨y, more, n, s1, by rw [h1]; simp, .inl g1, ?_, g3, g4, g5⟩
          simp only [List.map_append, List.map_cons, List.map_nil, List.sum_append, List.sum_cons,
            List.sum_nil] at h3 ⊢
          omega
      · exact .inr (h.trans (List.prefix_append _ _))
  have absurdCase : ∀ {items : List α} {x : α} {more : List α}, msgs = items ++ x :: more → msgs <+: items →
      False := by
    intro items x more h1 h2
    have := h2.length_le
    rw [h1] at this
    simp at this
    omega
  have same : ∀ {items : List α} {x y : α} {m1 m2 : List α}, msgs = items ++ x :: m1 →
      msgs = items ++ y :: m2 → x = y := by
    intro items x y m1 m2 h1 h2
    rw [h1] at h2
    have := List.append_cancel_left h2
    cases this
    rfl
  constructor
  · intro s pos items hr
    rcases inv hr with ⟨x, more, m, s'', h1, _⟩ | h
    · rw [h1, List.take_of_length_le (by simp), List.take_left]
    · obtain ⟨r, rfl⟩ := h
      rw [List.take_left, List.take_of_length_le (by simp)]
  · intro s pos items x more hr hm hi
    rcases inv hr with ⟨x', more', m, s'', h1, h2, h3, h4, h5, h6⟩ | h
    · obtain rfl := same hm h1
      have key : m = 0 ∧ D.finish s = (.ok x, s'') := by
        rcases h2 with h2 | ⟨_, h2⟩
        · exact coming_idle hI h2 hi
        · exact h2
      exact ⟨⟨_, key.2⟩, by omega⟩
    · exact (absurdCase hm h).elim
  · intro s pos items x more c ec hr hm hi ho
    rcases inv hr with ⟨x', more', m, s'', h1, h2, h3, h4, h5, h6⟩ | h
    · obtain rfl := same hm h1
      rcases h2 with h2 | ⟨h2, _⟩
      · obtain ⟨k, t, k1, k2, k3, k4, k5, k6⟩ := coming_step hI h2 hi ho
        exact ⟨k, t, k1, k2, k4, by omega⟩
      · rw [h2] at hi; cases hi
    · exact (absurdCase hm h).elim
  · intro s pos items x more hr hm hi
    rcases inv hr with ⟨x', more', m, s'', h1, h2, h3, h4, h5, h6⟩ | h
    · rcases h2 with ⟨_, t, ht⟩ | ⟨h2, _⟩
      · rw [item_busy hi] at ht
        rw [ht.1]
        exact ht.2.1
      · rw [h2] at hi; cases hi
    · exact (absurdCase hm h).elim

/-! ## Matching pairs -/


theorem streamable_false {ok : Shape → Prop} {p q : Bool} {D : Decoder σ α} {s : σ}
    (h : Streamable ok p q D s) : Streamable ok false q D s := by
  induction h with
  | own q hb hI => exact .own q hb.weaken hI
  | copyable p q b => exact .copyable _ _ _
  | bytes p q b => exact .bytes _ _ _
  | remaining q => exact .remaining _
  | null p q => exact .null _ _
  | padding q b => exact .padding _ _
  | number p q f k => exact .number _ _ _ _
  | monolithic q parse hp => exact .monolithic _ _ hp
  | utf8 _ ih => exact .utf8 ih
  | map f _ ih => exact .map f ih
  | tryMap f _ ih => exact .tryMap f ih
  | mapErr f _ ih => exact .mapErr f ih
  | omittable d _ ih => exact .omittable d ih
  | length p n hn h _ => exact .length _ n hn h
  | maxBytes n hok _ ih => exact .maxBytes n hok ih
  | peekable _ ih => exact .peekable ih
  | maybeEos _ ih => exact .maybeEos ih
  | collect hok hq h _ => exact .collect hok hq h
  | collectN p n h _ => exact .collectN _ n h
  | pair _ _ ih0 ih1 => exact .pair ih0 ih1
  | andThen f _ _ ih0 ih1 => exact .andThen f ih0 ih1
  | captured F v _ ih => exact .captured F v ih

theorem streamable_lax {p q : Bool} {D : Decoder σ α} {s : σ}
    (h : Streamable (fun _ => True) p q D s) : Streamable (fun _ => True) p false D s := by
  induction h with
  | own q hb hI => exact .own false hb hI
  | copyable p q b => exact .copyable _ _ _
  | bytes p q b => exact .bytes _ _ _
  | remaining q => exact .remaining _
  | null p q => exact .null _ _
  | padding q b => exact .padding _ _
  | number p q f k => exact .number _ _ _ _
  | monolithic q parse hp => exact .monolithic _ _ hp
  | utf8 _ ih => exact .utf8 ih
  | map f _ ih => exact .map f ih
  | tryMap f _ ih => exact .tryMap f ih
  | mapErr f _ ih => exact .mapErr f ih
  | omittable d _ ih => exact .omittable d ih
  | length p n hn h ih => exact .length _ n hn ih
  | maxBytes n hok _ ih => exact .maxBytes n hok ih
  | peekable _ ih => exact .peekable ih
  | maybeEos _ ih => exact .maybeEos ih
  | collect hok hq h ih => exact .collect hok (.inr trivial) ih
  | collectN p n h ih => exact .collectN _ n ih
  | pair _ _ ih0 ih1 => exact .pair ih0 ih1
  | andThen f _ _ ih0 ih1 => exact .andThen f ih0 ih1
  | captured F v _ ih => exact .captured F v ih

theorem streamable_le {p p' q : Bool} {ok : Shape → Prop} {D : Decoder σ α} {s : σ}
    (h : Streamable ok p q D s) (hp : p' = true → p = true) : Streamable ok p' q D s := by
  cases p' with
  | true => rw [hp rfl] at h; exact h
  | false => exact streamable_false h

theorem matched_streamable {strict delim again : Bool} {E : Encoder σ α} {sE : σ} {D : Decoder τ α} {sD : τ}
    {dom enc} (h : Matched strict delim again E sE D sD dom enc) :
    Streamable (fun _ => True) delim false D sD := by
  induction h with
  | copyable strict b => exact .copyable _ _ _
  | bytes strict b => exact .bytes _ _ _
  | remaining strict => exact .remaining _
  | number strict f g k _ => exact .number _ _ _ _
  | null strict => exact .null _ _
  | monolithic ser parse hp _ => exact .monolithic _ _ hp
  | utf8 strict' _ _ ih => exact .utf8 ih
  | mapErrEncoder f _ _ ih => exact ih
  | mapErrDecoder f _ ih => exact .mapErr f ih
  | map f g _ _ ih => exact .map g ih
  | mapTry f g _ _ ih => exact .tryMap g ih
  | tryMap f g _ _ ih => exact .map g ih
  | tryMapTry f g _ _ ih => exact .tryMap g ih
  | present _ ih => exact .omittable _ ih
  | absent _ hs => exact .omittable _ (streamable_lax hs)
  | maxBytesEncoder n _ ih => exact ih
  | maxBytesDecoder n _ ih => exact .maxBytes n trivial (streamable_false ih)
  | length n hn _ ih => exact .length _ n hn ih
  | preEncode _ ih => exact ih
  | peekable _ ih => exact .peekable ih
  | maybeEos _ ih => exact .maybeEos ih
  | collect _ ih => exact .collect trivial (.inr trivial) ih
  | collectN n _ ih => exact .collectN _ n ih
  | pair _ _ ih0 ih1 => exact .pair (streamable_le ih0 (fun _ => rfl)) ih1
  | header key choose _ _ _ ih0 ih1 => exact .andThen choose (streamable_le ih0 (fun _ => rfl)) ih1
  | mapOn f g _ _ ih => exact .map g ih
  | captured F v _ ih => exact .captured F v ih
  | weaken _ _ _ hd _ ih => exact streamable_le ih hd

theorem matched_writes {strict delim again : Bool} {E : Encoder σ α} {sE : σ} {D : Decoder τ α} {sD : τ}
    {dom enc} (h : Matched strict delim again E sE D sD dom enc) : Writes strict E sE dom enc := by
  induction h with
  | copyable strict b => exact .weaken (.bytes _ strict) (fun x _ => ⟨trivial, rfl⟩) id
  | bytes strict b => exact .weaken (.bytes _ strict) (fun x _ => ⟨trivial, rfl⟩) id
  | remaining strict => exact .weaken (.bytes _ strict) (fun x _ => ⟨trivial, rfl⟩) id
  | number strict f g k _ => exact .number f strict
  | null strict => exact .null strict
  | monolithic ser parse hp _ => exact .monolithic ser
  | utf8 strict' _ _ ih => exact .weaken (.utf8 strict') (fun x _ => ⟨trivial, rfl⟩) id
  | mapErrEncoder f hf _ ih => exact .mapErr f hf ih
  | mapErrDecoder f _ ih => exact ih
  | map f g _ _ ih => exact .mapFrom f ih
  | mapTry f g _ _ ih => exact .mapFrom f ih
  | tryMap f g _ _ ih => exact .tryMapFrom f ih
  | tryMapTry f g _ _ ih => exact .tryMapFrom f ih
  | present _ ih =>
    refine .weaken (.optional ih) (fun o ho => ⟨?_, rfl⟩) id
    rintro x rfl
    obtain ⟨y, hy, hd⟩ := ho
    cases hy
    exact hd
  | absent hw hs => exact .weaken (.optional hw) (fun o ho => ⟨by rintro x rfl; simp at ho, rfl⟩) id
  | maxBytesEncoder n _ ih => exact .maxBytes n ih
  | maxBytesDecoder n _ ih => exact .weaken ih (fun x hx => ⟨hx.1, rfl⟩) id
  | length n hn _ ih => exact .weaken ih (fun x hx => ⟨hx.1, rfl⟩) id
  | preEncode _ ih => exact .preEncode ih
  | peekable _ ih => exact ih
  | maybeEos _ ih => exact .weaken ih (fun x hx => ⟨hx.1, rfl⟩) id
  | collect _ ih => exact .repeated ih
  | collectN n _ ih => exact .weaken (.repeated ih) (fun x hx => ⟨hx.1, rfl⟩) id
  | pair _ _ ih0 ih1 => exact .pair ih0 ih1
  | header key choose _ hw _ ih0 _ => exact .mapFrom _ (.pair ih0 hw)
  | mapOn f g hfg _ ih => exact .weaken (.mapFrom f ih) (fun y hy => ⟨(hfg y hy).1, rfl⟩) id
  | captured F v _ ih => exact ih
  | weaken _ hd hs _ _ ih => exact .weaken ih hd hs

theorem bytesOf_ok {r : Except ErrorKind Bytes} {b : Bytes} (h : r = .ok b) : bytesOf r = b := by
  rw [h]; rfl

theorem mapError_ok {r : Except ErrorKind Bytes} {f : ErrorKind → ErrorKind} {b : Bytes}
    (h : r.mapError f = .ok b) : r = .ok b := by
  cases r with
  | ok x => cases h; rfl
  | error k => cases h

theorem bind_ok {ε γ δ : Type} {r : Except ε γ} {f : γ → Except ε δ} {b : δ} (h : r.bind f = .ok b) :
    ∃ x, r = .ok x ∧ f x = .ok b := by
  cases r with
  | ok x => exact ⟨x, rfl, h⟩
  | error k => cases h

theorem many_flatMap {dom : α → Prop} {enc : α → Except ErrorKind Bytes} :
    ∀ {xs : List α}, (∀ x ∈ xs, dom x ∧ ∃ b, enc x = .ok b ∧ b ≠ []) →
      Many (fun x bs => dom x ∧ enc x = .ok bs) xs (xs.flatMap fun x => bytesOf (enc x))
  | [], _ => .nil
  | x :: xs, h => by
    obtain ⟨h1, b, h2, h3⟩ := h x (by simp)
    rw [List.flatMap_cons, bytesOf_ok h2]
    exact .cons ⟨h1, h2⟩ h3 (many_flatMap fun y hy => h y (by simp [hy]))

theorem matched_reads {strict delim again : Bool} {E : Encoder σ α} {sE : σ} {D : Decoder τ α} {sD : τ}
    {dom enc} (h : Matched strict delim again E sE D sD dom enc) :
    ∃ F, F sD ∧ Reads delim again D F (fun x bs => dom x ∧ enc x = .ok bs) := by
  induction h with
  | copyable strict b =>
    refine ⟨_, ?_, (reads_copyable b.length).weaken ?_⟩
    · exact ⟨rfl, rfl⟩
    · rintro x bs ⟨h1, h2⟩; cases h2; exact ⟨rfl, h1⟩
  | bytes strict b =>
    refine ⟨_, ?_, (reads_bytes b.length).weaken ?_⟩
    · exact ⟨b, rfl, rfl⟩
    · rintro x bs ⟨h1, h2⟩; cases h2; exact ⟨rfl, h1⟩
  | remaining strict =>
    refine ⟨_, ?_, reads_remaining.weaken ?_⟩
    · exact rfl
    · rintro x bs ⟨h1, h2⟩; cases h2; exact ⟨rfl, h1⟩
  | number strict f g k hfg =>
    refine ⟨_, ?_, (reads_number g k).weaken ?_⟩
    · exact ⟨rfl, by simp [fixInit]⟩
    · rintro x bs ⟨_, h2⟩; exact ⟨(hfg x bs h2).2.symm, (hfg x bs h2).1⟩
  | null strict =>
    refine ⟨_, trivial, reads_null.weaken ?_⟩
    rintro x bs ⟨_, h2⟩; cases h2; rfl
  | monolithic ser parse hp hsp =>
    refine ⟨_, ?_, (reads_monolithic parse).weaken ?_⟩
    · exact rfl
    · rintro x bs ⟨h1, h2⟩
      cases h2
      have h3 := hsp x h1
      have h4 := hp.whole _ _ _ h3
      simp only [List.length_nil, Nat.zero_add] at h4
      rw [← h3, ← h4]
  | utf8 strict' hok _ ih =>
    obtain ⟨F, hF, hR⟩ := ih
    refine ⟨F, hF, (reads_utf8 hR).weaken ?_⟩
    rintro x bs ⟨h1, h2⟩
    cases h2
    exact ⟨_, ⟨h1, hok _ h1⟩, fromUtf8_utf8Bytes x⟩
  | mapErrEncoder f hf _ ih =>
    obtain ⟨F, hF, hR⟩ := ih
    exact ⟨F, hF, hR.weaken fun x bs h => ⟨h.1, mapError_ok h.2⟩⟩
  | mapErrDecoder f _ ih =>
    obtain ⟨F, hF, hR⟩ := ih
    exact ⟨F, hF, reads_mapErr f hR⟩
  | map f g hfg _ ih =>
    obtain ⟨F, hF, hR⟩ := ih
    exact ⟨F, hF, (reads_map g hR).weaken fun x bs h => ⟨f x, h, hfg x h.1⟩⟩
  | mapOn f g hfg _ ih =>
    obtain ⟨F, hF, hR⟩ := ih
    exact ⟨F, hF, (reads_map g hR).weaken fun x bs h => ⟨f x, ⟨(hfg x h.1).1, h.2⟩, (hfg x h.1).2⟩⟩
  | captured C v _ ih =>
    obtain ⟨F, hF, hR⟩ := ih
    exact ⟨_, ⟨rfl, hF⟩, reads_captured hR⟩
  | mapTry f g hfg _ ih =>
    obtain ⟨F, hF, hR⟩ := ih
    exact ⟨F, hF, (reads_tryMap g hR).weaken fun x bs h => ⟨f x, h, hfg x h.1⟩⟩
  | tryMap f g hfg _ ih =>
    obtain ⟨F, hF, hR⟩ := ih
    refine ⟨F, hF, (reads_map g hR).weaken ?_⟩
    rintro y bs ⟨h1, h2⟩
    obtain ⟨x, hx, h3⟩ := bind_ok h2
    exact ⟨x, ⟨h1 x hx, h3⟩, hfg y x hx (h1 x hx)⟩
  | tryMapTry f g hfg _ ih =>
    obtain ⟨F, hF, hR⟩ := ih
    refine ⟨F, hF, (reads_tryMap g hR).weaken ?_⟩
    rintro y bs ⟨h1, h2⟩
    obtain ⟨x, hx, h3⟩ := bind_ok h2
    exact ⟨x, ⟨h1 x hx, h3⟩, hfg y x hx (h1 x hx)⟩
  | present _ ih =>
    obtain ⟨F, hF, hR⟩ := ih
    refine ⟨_, ?_, (reads_omit_false hR).weaken ?_⟩
    · exact ⟨hF, rfl⟩
    · rintro o bs ⟨⟨x, rfl, hd⟩, h2⟩
      exact ⟨x, rfl, hd, h2⟩
  | absent hw hs =>
    refine ⟨_, ?_, ((reads_omit_true _).relax (fun _ => rfl) id).weaken ?_⟩
    · exact rfl
    · rintro o bs ⟨rfl, h2⟩
      cases h2
      exact ⟨rfl, rfl⟩
  | maxBytesEncoder n _ ih =>
    obtain ⟨F, hF, hR⟩ := ih
    exact ⟨F, hF, hR.weaken fun x bs h => ⟨h.1.1, h.2⟩⟩
  | maxBytesDecoder n _ ih =>
    obtain ⟨F, hF, hR⟩ := ih
    refine ⟨_, ?_, (reads_maxBytes n hR).weaken ?_⟩
    · exact ⟨hF, rfl, rfl⟩
    · rintro x bs ⟨⟨h1, h2⟩, h3⟩
      rw [bytesOf_ok h3] at h2
      exact ⟨⟨h1, h3⟩, h2⟩
  | length n hn _ ih =>
    obtain ⟨F, hF, hR⟩ := ih
    refine ⟨_, ?_, (reads_length n hR hn).weaken ?_⟩
    · exact ⟨hF, rfl, rfl⟩
    · rintro x bs ⟨⟨h1, h2⟩, h3⟩
      rw [bytesOf_ok h3] at h2
      exact ⟨⟨h1, h3⟩, h2⟩
  | preEncode _ ih =>
    obtain ⟨F, hF, hR⟩ := ih
    exact ⟨F, hF, hR.weaken fun x bs h => ⟨h.1.1, h.2⟩⟩
  | peekable _ ih =>
    obtain ⟨F, hF, hR⟩ := ih
    exact ⟨_, ⟨hF, rfl⟩, reads_peekable hR⟩
  | maybeEos _ ih =>
    obtain ⟨F, hF, hR⟩ := ih
    refine ⟨_, ?_, (reads_maybeEos hR).weaken ?_⟩
    · exact ⟨hF, rfl⟩
    · rintro x bs ⟨⟨h1, h2⟩, h3⟩
      rw [bytesOf_ok h3] at h2
      exact ⟨⟨h1, h3⟩, h2⟩
  | collect _ ih =>
    obtain ⟨F, hF, hR⟩ := ih
    refine ⟨_, ?_, (reads_collect hR).weaken ?_⟩
    · exact ⟨hF, rfl, rfl⟩
    · rintro xs bs ⟨h1, h2⟩
      cases h2
      exact many_flatMap h1
  | collectN n _ ih =>
    obtain ⟨F, hF, hR⟩ := ih
    refine ⟨_, ?_, (reads_collectN n hR).weaken ?_⟩
    · exact ⟨hF, rfl, rfl⟩
    · rintro xs bs ⟨⟨h1, h3⟩, h2⟩
      cases h2
      exact ⟨many_flatMap h1, h3⟩
  | pair _ _ ih0 ih1 =>
    obtain ⟨F0, hF0, hR0⟩ := ih0
    obtain ⟨F1, hF1, hR1⟩ := ih1
    refine ⟨_, ?_, (reads_pair hR0 hR1).weaken ?_⟩
    · exact ⟨hF0, hF1⟩
    · rintro x bs ⟨⟨h0, h1⟩, h2⟩
      obtain ⟨b0, e0, h2⟩ := bind_ok h2
      obtain ⟨b1, e1, h2⟩ := bind_ok h2
      cases h2
      exact ⟨b0, b1, rfl, ⟨h0, e0⟩, h1, e1⟩
  | header key choose _ hw _ ih0 ih1 =>
    obtain ⟨F0, hF0, hR0⟩ := ih0
    have hF := fun k => (ih1 k).choose_spec.1
    have hR := fun k => (ih1 k).choose_spec.2
    refine ⟨_, ?_, (reads_andThen hR0 hR hF).weaken ?_⟩
    · exact ⟨hF0, rfl⟩
    · rintro x bs ⟨⟨h0, h1⟩, h2⟩
      obtain ⟨b0, e0, h2⟩ := bind_ok h2
      obtain ⟨b1, e1, h2⟩ := bind_ok h2
      cases h2
      exact ⟨key x, b0, b1, rfl, ⟨h0, e0⟩, ⟨h1, h0, rfl⟩, e1⟩
  | weaken _ hd _ hdl ha ih =>
    obtain ⟨F, hF, hR⟩ := ih
    refine ⟨F, hF, (hR.relax hdl ha).weaken fun x bs h => ?_⟩
    exact ⟨(hd x h.1).1, (hd x h.1).2 ▸ h.2⟩

/-! ## Sending -/

theorem sends_encRun {strict : Bool} {E : Encoder σ α} {s₀ : σ} {dom enc} (h : Emits strict E s₀ dom enc)
    {s : σ} {msgs : List α} {out : Bytes} (hs : Sends strict E s₀ s msgs out) (hd : ∀ x ∈ msgs, dom x) :
    (∀ x ∈ msgs, ∃ b, enc x = .ok b) ∧
      EncRun E dom enc s₀ s (msgs.flatMap fun x => bytesOf (enc x)) out := by
  induction hs with
  | new => exact ⟨by simp, .new⟩
  | @start s s' items out x _ hi hst ih =>
    obtain ⟨h1, h2⟩ := ih fun y hy => hd y (by simp [hy])
    have hdx := hd x (by simp)
    cases hx : enc x with
    | error k =>
      have := h.rejects h2 hi hdx hx
      rw [hst] at this
      cases this
    | ok b =>
      refine ⟨?_, ?_⟩
      · intro y hy
        rw [List.mem_append, List.mem_singleton] at hy
        rcases hy with hy | rfl
        · exact h1 y hy
        · exact ⟨b, hx⟩
      · rw [List.flatMap_append, List.flatMap_singleton, bytesOf_ok hx]
        exact .start h2 hi hdx hx hst
  | @encode s s' items out bs cap e _ hst henc ih =>
    obtain ⟨h1, h2⟩ := ih hd
    refine ⟨h1, .encode h2 ?_ henc⟩
    intro hr
    rcases hst with hst | hst
    · rcases Nat.lt_or_ge cap ((items.flatMap fun x => bytesOf (enc x)).length - out.length) with hlt | hge
      · have := h.tooShort hst h2 hr hlt
        rw [henc] at this
        cases this
      · exact hge
    · rw [hst] at hr; cases hr

theorem todo_of {dom : α → Prop} {enc : α → Except ErrorKind Bytes} {size : α → Nat} (tail : Bytes) :
    ∀ {msgs : List α}, (∀ x ∈ msgs, dom x) → (∀ x ∈ msgs, ∃ b, enc x = .ok b ∧ size x = b.length) →
      Todo (fun x bs => dom x ∧ enc x = .ok bs) size tail msgs
        ((msgs.flatMap fun x => bytesOf (enc x)) ++ tail)
  | [], _, _ => by simpa using Todo.nil
  | x :: xs, h1, h2 => by
    obtain ⟨b, hb, hs⟩ := h2 x (by simp)
    rw [List.flatMap_cons, List.append_assoc, bytesOf_ok hb]
    exact .cons ⟨h1 x (by simp), hb⟩ hs
      (todo_of tail (fun y hy => h1 y (by simp [hy])) fun y hy => h2 y (by simp [hy]))

theorem matched_receives {strict delim again : Bool} {E : Encoder σ α} {sE : σ} {D : Decoder τ α} {sD : τ}
    {dom enc} (h : Matched strict delim again E sE D sD dom enc) {size : α → Nat} {msgs : List α}
    {tail : Bytes} {e : Eos}
    (hd : ∀ x ∈ msgs, dom x ∧ ∃ b, enc x = .ok b ∧ size x = b.length)
    (he : EosSane e ((msgs.flatMap fun x => bytesOf (enc x)) ++ tail).length)
    (ha : delim = true ∧ again = true ∨ msgs.length ≤ 1)
    (ht : delim = true ∨ tail = [] ∧ e.isReached = true) :
    Receives D sD ((msgs.flatMap fun x => bytesOf (enc x)) ++ tail) e msgs size := by
  obtain ⟨I, hI, hIs⟩ := streamable_splits (matched_streamable h)
  obtain ⟨F, hF, hR⟩ := matched_reads h
  exact receives_of hI hR ⟨hIs, hF⟩ he (todo_of tail (fun x hx => (hd x hx).1) fun x hx => (hd x hx).2) ha ht

theorem matched_roundTrips {strict delim again : Bool} {E : Encoder σ α} {sE : σ} {D : Decoder τ α} {sD : τ}
    {dom enc} (h : Matched strict delim again E sE D sD dom enc) (size : α → Nat)
    (hz : ∀ x b, dom x → enc x = .ok b → size x = b.length) :
    RoundTrips strict delim again E sE D sD dom size := by
  intro s msgs out hs hi hd ha tail e he ht
  obtain ⟨P, hf⟩ := writes_fresh (matched_writes h)
  have hE := fresh_emits hf
  obtain ⟨h1, h2⟩ := sends_encRun hE hs hd
  have h3 := hE.complete h2 hi
  subst h3
  have h4 : ∀ x ∈ msgs, ∃ b, enc x = .ok b ∧ size x = b.length := fun x hx => by
    obtain ⟨b, hb⟩ := h1 x hx
    exact ⟨b, hb, hz x b (hd x hx) hb⟩
  refine ⟨?_, matched_receives h (fun x hx => ⟨hd x hx, h4 x hx⟩) he ha ht⟩
  rw [List.length_flatMap]
  congr 1
  apply List.map_congr_left
  intro x hx
  obtain ⟨b, hb, hsz⟩ := h4 x hx
  rw [hsz, bytesOf_ok hb]

theorem matched_emits {strict delim again : Bool} {E : Encoder σ α} {sE : σ} {D : Decoder τ α} {sD : τ}
    {dom enc} (h : Matched strict delim again E sE D sD dom enc) : Emits strict E sE dom enc := by
  obtain ⟨P, hf⟩ := writes_fresh (matched_writes h)
  exact fresh_emits hf

end Bytecodec
