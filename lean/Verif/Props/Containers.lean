import Verif.Lemmas.Containers
import Verif.Props.Encoding
/-!
# C69, C70: any container, any iterator
-/
namespace Bytecodec.Props

open Spec

variable {σ α κ ι : Type}

/-! ## C69: `collect`, `collectn` and `repeat` do not depend on the container or iterator -/

/-- C69 (`collect`): collecting into any container is, for every sequence of calls, the same as collecting
into a vector and then putting the items into an empty container one after the other, in order. -/
theorem C69_collect (D : Decoder σ α) (ext : κ → α → κ) (dflt : κ) (s : σ) :
    Alike (collectIntoDecoder ext dflt D) (.new dflt s)
      (mapDecoder (collectDecoder D) fun items => items.foldl ext dflt) ⟨s, [], false⟩ :=
  (sim_collect_into D ext dflt).alike ⟨rfl, rfl, rfl⟩

/-- C69 (`collectn`). -/
theorem C69_collectn (D : Decoder σ α) (ext : κ → α → κ) (dflt : κ) (s : σ) (count : Nat) :
    Alike (collectNIntoDecoder ext dflt D) (.new dflt s count)
      (mapDecoder (collectNDecoder D) fun items => items.foldl ext dflt) (.new s count) :=
  (sim_collectN_into D ext dflt).alike ⟨rfl, rfl, rfl⟩

/-- C69 (`collect`, vectors): a container to which items are appended is the vector. -/
theorem C69_collect_vec (D : Decoder σ α) (s : σ) (calls : List Call) :
    observe (collectIntoDecoder (fun items x => items ++ [x]) [] D) (.new [] s) calls =
      observe (collectDecoder D) ⟨s, [], false⟩ calls := by
  have h := (C69_collect D (fun items x => items ++ [x]) [] s).2.2 calls
  have key : ∀ (items acc : List α), items.foldl (fun items x => items ++ [x]) acc = acc ++ items := by
    intro items
    induction items with
    | nil => simp
    | cons x xs ih => intro acc; simp [ih]
  have : (fun items : List α => items.foldl (fun items x => items ++ [x]) []) = id := by
    funext items
    simpa using key items []
  rw [this] at h
  rw [h]
  congr 1
  refine Decoder.ext' (fun _ _ _ => rfl) (fun s => ?_) (fun _ => rfl) fun _ => rfl
  simp only [mapDecoder, id]
  generalize (collectDecoder D).finish s = p
  obtain ⟨r, t⟩ := p
  cases r <;> rfl

/-- C69 (`repeat`): over any iterator that ends, `repeat` behaves for every sequence of calls as over the
list of the items the iterator delivers. -/
theorem C69_repeat {next : ι → Option (α × ι)} {list : ι → List α} (h : Lists next list) (E : Encoder σ α)
    (s : σ) :
    AlikeE (repeatIterEncoder next E) (.new s) (mapFromEncoder (repeatEncoder E) list) (.new s) :=
  (h.simE E).alike ⟨rfl, rfl⟩

/-- Four bytes, arriving in two pieces, collected into a set (a list without repetitions). -/
example :
    observe (collectNIntoDecoder (fun (set : List UInt8) x => if x ∈ set then set else x :: set) [] u8Decoder)
      (.new [] (.new [0]) 4) [.decode [7, 7] (.new false), .decode [9, 7] (.new true), .finish] =
      [⟨.decode (.ok 2), false, .finite 1⟩, ⟨.decode (.ok 2), true, .finite 0⟩,
       ⟨.finish (.ok [9, 7]), true, .finite 0⟩] := by rfl

/-- A countdown iterator meets the hypothesis of `C69_repeat`. -/
example : Lists (fun n : Nat => match n with | 0 => none | n + 1 => some (n, n)) (fun n => (List.range n).reverse) where
  last := by intro i h; cases i with | zero => rfl | succ n => cases h
  item := by
    intro i x i' h
    cases i with
    | zero => cases h
    | succ n => cases h; simp [List.range_succ]

/-! ## C70: endless iterators -/

/-- C70: over an iterator that never ends, of items that each have an encoding of at least one byte,
`repeat` fills every buffer completely, however the buffers are sized; together the buffers hold the
encodings one after the other, without gap or repetition; and the encoder never becomes idle. -/
theorem C70_endless {strict : Bool} {E : Encoder σ α} {s₀ : σ} {dom enc} (hE : Emits strict E s₀ dom enc)
    {next : ι → Option (α × ι)} {iter : Nat → ι} {item : Nat → α} (hi : Endless next iter item)
    {b : Nat → Bytes} (hd : ∀ n, dom (item n)) (hc : ∀ n, enc (item n) = .ok (b n)) (hb : ∀ n, b n ≠ []) :
    ∃ s, (repeatIterEncoder next E).start (.new s₀) (iter 0) = (.ok (), s) ∧
      ∀ (caps : List Nat) (m : Nat), caps.sum ≤ m →
        (encodeEach (repeatIterEncoder next E) s caps).1 = (cut caps (firstOf b m)).map .ok ∧
        (repeatIterEncoder next E).isIdle (encodeEach (repeatIterEncoder next E) s caps).2 = false := by
  refine ⟨⟨s₀, some (iter 0)⟩, rfl, fun caps m hm => ?_⟩
  obtain ⟨s', k, pieces, h1, h2, h3⟩ := encodeEach_endless hE hi hd hc hb caps s₀ 0 []
    ⟨.new, .inl hE.new⟩
  rw [h1]
  refine ⟨?_, rfl⟩
  simp only
  have hp := hE.inOrder h3.run
  rw [List.nil_append] at hp
  have hlen : pieces.flatten.length = caps.sum := by rw [← h2, List.length_flatten]
  have : pieces.flatten <+: firstOf b m := by
    rcases Nat.le_total k m with hkm | hkm
    · exact hp.trans (firstOf_prefix b hkm)
    · exact List.prefix_of_prefix_length_le hp (firstOf_prefix b hkm) (by
        have := firstOf_length hb m
        omega)
  rw [← h2, cut_of_prefix _ this]

/-- C70 (end of the stream): if the end of the stream is announced at any moment, with a buffer of any
size, the inner encoder's `UnexpectedEos` is reported: an endless sequence never fits. -/
theorem C70_eos {E : Encoder σ α} {s₀ : σ} {dom enc} (hE : Emits true E s₀ dom enc)
    {next : ι → Option (α × ι)} {iter : Nat → ι} {item : Nat → α} (hi : Endless next iter item)
    {b : Nat → Bytes} (hd : ∀ n, dom (item n)) (hc : ∀ n, enc (item n) = .ok (b n)) (hb : ∀ n, b n ≠ [])
    (caps : List Nat) (cap : Nat) {e : Eos} (he : e.isReached = true) :
    ((repeatIterEncoder next E).encode
      (encodeEach (repeatIterEncoder next E) ((repeatIterEncoder next E).start (.new s₀) (iter 0)).2 caps).2
      cap e).1 = .err .unexpectedEos := by
  obtain ⟨s', k, pieces, h1, h2, h3⟩ := encodeEach_endless hE hi hd hc hb caps s₀ 0 []
    ⟨.new, .inl hE.new⟩
  have h4 : ((repeatIterEncoder next E).start (.new s₀) (iter 0)).2 = ⟨s₀, some (iter 0)⟩ := rfl
  rw [h4, h1]
  exact repeatLoop_endless_eos hE hi hd hc hb cap he _ [] s' k _ (Nat.le_refl _) (Nat.zero_le _) h3

/-- C70 (limit): if the items have no bytes, `encode` never returns: it takes items from the
iterator forever. -/
theorem C70_empty_items_hang (cap : Nat) (e : Eos) :
    ((repeatIterEncoder (fun n : Nat => some (((), n + 1) : Unit × Nat)) nullEncoder.toEncoder).encode
      ⟨(), some 0⟩ cap e).1 = .diverge := by
  simp only [repeatIterEncoder]
  rw [repeatIterLoop]
  cases h : startNextIter (fun n : Nat => some (((), n + 1) : Unit × Nat)) nullEncoder.toEncoder () (some 0) with
  | none => rfl
  | some x => exact absurd (startNextIter_endless_null _ _ _ h) (by simp)

/-- Counting upwards for ever, each number one byte, meets the hypotheses of `C70_endless`. -/
example : ∃ s, (repeatIterEncoder (fun n : Nat => some (n % 256, n + 1)) (fixEncoder fun n => .ok [UInt8.ofNat n]).toEncoder).start
      (.new .new) 0 = (.ok (), s) ∧ ∀ (caps : List Nat) (m : Nat), caps.sum ≤ m →
        (encodeEach (repeatIterEncoder (fun n : Nat => some (n % 256, n + 1))
          (fixEncoder fun n => .ok [UInt8.ofNat n]).toEncoder) s caps).1 =
          (cut caps (firstOf (fun n => [UInt8.ofNat (n % 256)]) m)).map .ok ∧
        (repeatIterEncoder (fun n : Nat => some (n % 256, n + 1)) (fixEncoder fun n => .ok [UInt8.ofNat n]).toEncoder).isIdle
          (encodeEach (repeatIterEncoder (fun n : Nat => some (n % 256, n + 1))
            (fixEncoder fun n => .ok [UInt8.ofNat n]).toEncoder) s caps).2 = false :=
  C70_endless (strict := true) (C54_contract (.number _ true)) (iter := fun n => n) (item := fun n => n % 256)
    (fun _ => rfl) (fun _ => trivial) (fun _ => rfl) (by simp)

end Bytecodec.Props
