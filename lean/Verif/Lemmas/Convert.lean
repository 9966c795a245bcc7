import Verif.Spec.Convert
/-!
Helper lemmas on conversion.
-/
namespace BK

theorem store_eq : ∀ (vs mem : List Int) (pos : Nat), pos + vs.length ≤ mem.length →
    store mem (pos : Int) vs = .ok (mem.take pos ++ vs ++ mem.drop (pos + vs.length))
  | [], mem, pos, _ => by
    unfold store
    rw [List.append_nil, List.length_nil, Nat.add_zero, List.take_append_drop]
  | v :: vs, mem, pos, h => by
    rw [List.length_cons] at h
    have hlt : pos < mem.length := by omega
    unfold store
    have hw : wr mem (pos : Int) v = .ok (mem.set pos v) := by
      unfold wr
      rw [if_pos ⟨by omega, by simpa using hlt⟩]
      rfl
    rw [hw, ok_bind]
    have ih := store_eq vs (mem.set pos v) (pos + 1) (by rw [List.length_set]; omega)
    rw [Int.natCast_add] at ih
    rw [show (pos : Int) + 1 = (pos : Int) + ((1 : Nat) : Int) from rfl, ih]
    congr 1
    have e1 : (mem.set pos v).take (pos + 1) = mem.take pos ++ [v] := by
      rw [List.set_eq_take_append_cons_drop, if_pos hlt, List.take_append,
        List.length_take, Nat.min_eq_left (Nat.le_of_lt hlt), List.take_take]
      simp
    have e2 : (mem.set pos v).drop (pos + 1 + vs.length) = mem.drop (pos + (vs.length + 1)) := by
      rw [List.drop_set, if_pos (by omega)]
      congr 1; omega
    rw [e1, e2, List.length_cons]
    simp

theorem convertBytes_eq (f : Int → List Int) : ∀ (cs mem : List Int) (pos : Nat),
    pos + (cs.flatMap f).length ≤ mem.length →
    convertBytes f cs (pos : Int) mem =
      .ok (mem.take pos ++ cs.flatMap f ++ mem.drop (pos + (cs.flatMap f).length))
  | [], mem, pos, _ => by
    unfold convertBytes
    simp
  | c :: cs, mem, pos, h => by
    unfold convertBytes
    rw [List.flatMap_cons, List.length_append] at h
    rw [store_eq _ _ _ (by omega), ok_bind]
    have hlen : (mem.take pos ++ f c ++ mem.drop (pos + (f c).length)).length = mem.length := by
      simp only [List.length_append, List.length_take, List.length_drop]
      omega
    have ih := convertBytes_eq f cs (mem.take pos ++ f c ++ mem.drop (pos + (f c).length))
      (pos + (f c).length) (by rw [hlen]; omega)
    rw [Int.natCast_add] at ih
    rw [ih]
    congr 1
    have l1 : (mem.take pos ++ f c).length = pos + (f c).length := by
      rw [List.length_append, List.length_take]; omega
    rw [List.take_append_of_le_length (by omega), List.take_of_length_le (by omega),
      List.drop_append, l1, List.drop_of_length_le (by omega), List.drop_drop, List.flatMap_cons,
      List.length_append]
    simp only [List.nil_append, List.append_assoc]
    congr 4
    omega

/-- Frames of pairs of bytes. -/
def pairs (f : Int → Int → Int) : List Int → List Int
  | a :: b :: cs => f a b :: pairs f cs
  | _ => []

theorem pairs_length (f : Int → Int → Int) : ∀ cs : List Int, (pairs f cs).length = cs.length / 2
  | [] => rfl
  | [_] => by simp [pairs]
  | a :: b :: cs => by
    rw [pairs, List.length_cons, pairs_length f cs]
    simp only [List.length_cons]
    omega

theorem convertPairs_eq (f : Int → Int → Int) : ∀ (cs mem : List Int) (pos : Nat),
    cs.length % 2 = 0 → pos + cs.length / 2 ≤ mem.length →
    convertPairs f cs (pos : Int) mem =
      .ok (mem.take pos ++ pairs f cs ++ mem.drop (pos + cs.length / 2))
  | [], mem, pos, _, _ => by
    unfold convertPairs
    simp [pairs]
  | [_], mem, pos, h, _ => by simp at h
  | a :: b :: cs, mem, pos, hev, h => by
    unfold convertPairs
    simp only [List.length_cons] at hev h
    rw [store_eq _ _ _ (by simp only [List.length_cons, List.length_nil]; omega), ok_bind]
    have hlen : (mem.take pos ++ [f a b] ++ mem.drop (pos + [f a b].length)).length = mem.length := by
      simp only [List.length_append, List.length_take, List.length_drop, List.length_cons,
        List.length_nil]
      omega
    have ih := convertPairs_eq f cs (mem.take pos ++ [f a b] ++ mem.drop (pos + [f a b].length))
      (pos + 1) (by omega) (by rw [hlen]; omega)
    rw [Int.natCast_add] at ih
    rw [show (pos : Int) + 1 = (pos : Int) + ((1 : Nat) : Int) from rfl, ih]
    congr 1
    have l1 : (mem.take pos ++ [f a b]).length = pos + 1 := by
      rw [List.length_append, List.length_take]
      simp only [List.length_cons, List.length_nil]
      omega
    rw [List.take_append_of_le_length (by omega), List.take_of_length_le (by omega),
      List.drop_append, l1, List.drop_of_length_le (by omega), List.drop_drop, pairs]
    simp only [List.nil_append, List.append_assoc, List.length_cons, List.length_nil, List.cons_append]
    congr 3
    congr 1
    omega

/-- Frames of one byte, for all bytes. -/
theorem byteFrames_table : ∀ c : Fin 256,
    byteFrames 1 false (c.val : Int) = (digits 2 8 (c.val : Int)).map Fmt.u1.level ∧
    byteFrames 2 false (c.val : Int) = (digits 4 4 (c.val : Int)).map Fmt.u2.level ∧
    byteFrames 4 false (c.val : Int) = (digits 16 2 (c.val : Int)).map Fmt.u4.level ∧
    byteFrames 8 false (c.val : Int) = [Fmt.u8.level (c.val : Int)] := by decide +kernel

theorem byteFrames_signed_table : ∀ c : Fin 256, c.val ≠ 128 →
    byteFrames 8 true (c.val : Int) = [Fmt.s8.level (signed 8 (c.val : Int))] := by decide +kernel

theorem byte_cases {P : Int → Prop} (h : ∀ c : Fin 256, P (c.val : Int)) {c : Int}
    (h0 : 0 ≤ c) (h1 : c ≤ 255) : P c := by
  have := h ⟨c.toNat, by omega⟩
  have e : ((c.toNat : Nat) : Int) = c := by omega
  rw [← e]
  exact this

theorem flatMap_length_const {f : Int → List Int} {k : Nat} : ∀ {cs : List Int},
    (∀ c ∈ cs, (f c).length = k) → (cs.flatMap f).length = k * cs.length
  | [], _ => rfl
  | c :: cs, h => by
    rw [List.flatMap_cons, List.length_append, h c List.mem_cons_self,
      flatMap_length_const (fun x hx => h x (List.mem_cons_of_mem _ hx)), List.length_cons,
      Nat.mul_add, Nat.mul_one, Nat.add_comm]

theorem level_s16 (x : Int) : Fmt.s16.level x = x := by
  unfold Fmt.level Fmt.top
  exact Int.mul_tdiv_cancel x (by decide)

theorem signed_wrap {x : Int} (h0 : 0 ≤ x) (h1 : x ≤ 65535) : wrapI16 x = signed 16 x := by
  unfold wrapI16 signed
  rw [show (2:Int) ^ (16 - 1) = 32768 from rfl, show (2:Int) ^ 16 = 65536 from rfl]
  split <;> omega


/-- Bytes. -/
def Bytes (l : List Int) : Prop := ∀ b ∈ l, 0 ≤ b ∧ b ≤ 255

theorem Bytes.take {l : List Int} (h : Bytes l) (n : Nat) : Bytes (l.take n) :=
  fun b hb => h b (List.mem_of_mem_take hb)

/-- Bytes of a sample (at least one). -/
def Fmt.mask : Fmt → Nat
  | .s16 => 2 | _ => 1

theorem signed8_ne {c : Int} (h : signed 8 c ≠ -128) (h0 : 0 ≤ c) : c ≠ 128 := by
  intro e
  subst e
  exact h (by decide)

theorem unpack_bytes (fmt : Fmt) (big : Bool) (hf : fmt ≠ .s16) : ∀ (cs : List Int), Bytes cs →
    (fmt = .s8 → ∀ x ∈ unpack fmt big cs, x ≠ -128) →
    cs.flatMap (byteFrames fmt.bits (decide (fmt = .s8))) = (unpack fmt big cs).map fmt.level ∧
    (cs.flatMap (byteFrames fmt.bits (decide (fmt = .s8)))).length = 8 / fmt.bits * cs.length
  | [], _, _ => by cases fmt <;> exact ⟨rfl, rfl⟩
  | c :: cs, hb, hs => by
    have hc := hb c List.mem_cons_self
    have hb' : Bytes cs := fun x hx => hb x (List.mem_cons_of_mem _ hx)
    have ih := unpack_bytes fmt big hf cs hb' (fun e x hx => hs e x (by
      subst e
      exact List.mem_cons_of_mem _ hx))
    have tab := byte_cases (P := fun c =>
      byteFrames 1 false c = (digits 2 8 c).map Fmt.u1.level ∧
      byteFrames 2 false c = (digits 4 4 c).map Fmt.u2.level ∧
      byteFrames 4 false c = (digits 16 2 c).map Fmt.u4.level ∧
      byteFrames 8 false c = [Fmt.u8.level c]) byteFrames_table hc.1 hc.2
    rw [List.flatMap_cons, List.length_append, ih.2, ih.1, List.length_cons, Nat.mul_add, Nat.mul_one]
    cases fmt with
    | u1 =>
      have t := tab.1
      refine ⟨?_, ?_⟩
      · rw [unpack, List.map_append, ← t]; rfl
      · show (byteFrames 1 false c).length + _ = _
        rw [t]; exact Nat.add_comm _ _
    | u2 =>
      have t := tab.2.1
      refine ⟨?_, ?_⟩
      · rw [unpack, List.map_append, ← t]; rfl
      · show (byteFrames 2 false c).length + _ = _
        rw [t]; exact Nat.add_comm _ _
    | u4 =>
      have t := tab.2.2.1
      refine ⟨?_, ?_⟩
      · rw [unpack, List.map_append, ← t]; rfl
      · show (byteFrames 4 false c).length + _ = _
        rw [t]; exact Nat.add_comm _ _
    | u8 =>
      have t := tab.2.2.2
      refine ⟨?_, ?_⟩
      · show byteFrames 8 false c ++ _ = _
        rw [t]; rfl
      · show (byteFrames 8 false c).length + _ = _
        rw [t]; exact Nat.add_comm _ _
    | s8 =>
      have hne : c ≠ 128 := by
        have := hs rfl (signed 8 c) List.mem_cons_self
        exact signed8_ne this hc.1
      have t : byteFrames 8 true c = [Fmt.s8.level (signed 8 c)] :=
        byte_cases (P := fun c => c ≠ 128 → byteFrames 8 true c = [Fmt.s8.level (signed 8 c)])
          (fun c h => byteFrames_signed_table c (fun e => h (by rw [e]; rfl))) hc.1 hc.2 hne
      refine ⟨?_, ?_⟩
      · show byteFrames 8 true c ++ _ = _
        rw [t]; rfl
      · show (byteFrames 8 true c).length + _ = _
        rw [t]; exact Nat.add_comm _ _
    | s16 => exact absurd rfl hf

theorem unpack_pairs (big : Bool) : ∀ (cs : List Int), Bytes cs →
    pairs (pairFrame big false) cs = (unpack .s16 big cs).map Fmt.s16.level
  | [], _ => rfl
  | [_], _ => rfl
  | a :: b :: cs, hb => by
    have ha := hb a List.mem_cons_self
    have hb2 := hb b (List.mem_cons_of_mem _ List.mem_cons_self)
    have ih := unpack_pairs big cs (fun x hx => hb x (List.mem_cons_of_mem _ (List.mem_cons_of_mem _ hx)))
    rw [pairs, unpack]
    rw [List.map_cons, ← ih, level_s16]
    congr 1
    unfold pairFrame
    rw [if_neg (by decide)]
    split
    · exact signed_wrap (by omega) (by omega)
    · exact signed_wrap (by omega) (by omega)

/-- Frames of all channels for which there is room. -/
def Fmt.room (fmt : Fmt) (size ch : Nat) : Nat := 8 * size / (fmt.bits * ch) * ch

theorem wrapI32_nat {n : Nat} (h : n < 2147483648) : wrapI32 (n : Int) = (n : Int) := by
  unfold wrapI32
  omega

theorem room_le (fmt : Fmt) (size ch : Nat) : fmt.room size ch ≤ 8 * size := by
  unfold Fmt.room
  refine Nat.le_trans (Nat.mul_le_mul_left _ ?_) (Nat.div_mul_le_self _ (fmt.bits * ch))
  exact Nat.le_mul_of_pos_left _ (by cases fmt <;> decide)

theorem packetSize_eq (fmt : Fmt) {ch : Nat} (h8 : ch ≤ 8) :
    (if (fmt.bits : Int) ≤ 8 then wrapI32 ((fmt.bits : Int) * (ch : Int))
      else wrapI32 (((fmt.bits : Int) + 3) / 4 * 4 * (ch : Int))) = ((fmt.bits * ch : Nat) : Int) := by
  have e : (if (fmt.bits : Int) ≤ 8 then wrapI32 ((fmt.bits : Int) * (ch : Int))
    else wrapI32 (((fmt.bits : Int) + 3) / 4 * 4 * (ch : Int))) =
    wrapI32 ((fmt.bits : Int) * (ch : Int)) := by
    by_cases h : fmt = .s16
    · subst h
      rw [if_neg (by decide), show ((Fmt.s16.bits : Int) + 3) / 4 * 4 = (Fmt.s16.bits : Int) from rfl]
    · rw [if_pos (by cases fmt <;> first | decide | exact absurd rfl h)]
  have hp2 : fmt.bits * ch ≤ 16 * 8 := Nat.mul_le_mul (by cases fmt <;> decide) h8
  rw [e, ← Int.natCast_mul]
  exact wrapI32_nat (by omega)

theorem calcNumFrames_eq (fmt : Fmt) {size ch : Nat} (hs : size < 268435456) (h1 : 1 ≤ ch) (h8 : ch ≤ 8) :
    calcNumFrames size fmt.bits ch = .ok ((fmt.room size ch : Nat) : Int) := by
  have hp1 : 0 < fmt.bits * ch := Nat.mul_pos (by cases fmt <;> decide) (by omega)
  have hd : wrapI32 ((size : Int) * 8) = ((8 * size : Nat) : Int) := by
    rw [Int.mul_comm]
    exact wrapI32_nat (n := 8 * size) (by omega)
  have hle := room_le fmt size ch
  have hw : wrapI32 (((8 * size : Nat) : Int).tdiv ((fmt.bits * ch : Nat) : Int) * (ch : Int)) =
      ((fmt.room size ch : Nat) : Int) := by
    rw [← Int.ofNat_tdiv, ← Int.natCast_mul]
    exact wrapI32_nat (n := fmt.room size ch) (by omega)
  unfold calcNumFrames
  dsimp only
  rw [packetSize_eq fmt h8, hd, hw, if_neg (by omega)]

/-- Frames of the complete samples of all channels. -/
theorem room_ge (fmt : Fmt) (size ch : Nat) (h1 : 1 ≤ ch) :
    8 * (size - size % (fmt.mask * ch)) / fmt.bits ≤ fmt.room size ch := by
  unfold Fmt.room
  have hdm : size - size % (fmt.mask * ch) = fmt.mask * ch * (size / (fmt.mask * ch)) := by
    have := Nat.div_add_mod size (fmt.mask * ch)
    omega
  rw [hdm]
  generalize hq : size / (fmt.mask * ch) = q
  have hle : fmt.mask * ch * q ≤ size := by rw [← hq]; exact Nat.mul_div_le _ _
  have key : ∀ b m k : Nat, 0 < b → b * k = 8 * m → fmt.mask = m → fmt.bits = b →
      8 * (m * ch * q) / b ≤ 8 * size / (b * ch) * ch := by
    intro b m k hb hk hm hbb
    rw [hm] at hle
    have e : 8 * (m * ch * q) = b * (k * q * ch) := by
      rw [show 8 * (m * ch * q) = 8 * m * (ch * q) by
        rw [Nat.mul_assoc, Nat.mul_assoc], ← hk, Nat.mul_assoc]
      congr 1
      rw [Nat.mul_assoc, Nat.mul_comm ch q]
    rw [e, Nat.mul_div_cancel_left _ hb]
    refine Nat.mul_le_mul_right _ ?_
    rw [Nat.le_div_iff_mul_le (Nat.mul_pos hb h1)]
    have : 8 * (m * ch * q) ≤ 8 * size := Nat.mul_le_mul_left _ hle
    rw [e] at this
    refine Nat.le_trans (Nat.le_of_eq ?_) this
    rw [Nat.mul_comm (k * q), Nat.mul_assoc, Nat.mul_comm ch]
  cases fmt
  · exact key 1 1 8 (by decide) rfl rfl rfl
  · exact key 2 1 4 (by decide) rfl rfl rfl
  · exact key 4 1 2 (by decide) rfl rfl rfl
  · exact key 8 1 1 (by decide) rfl rfl rfl
  · exact key 8 1 1 (by decide) rfl rfl rfl
  · exact key 16 2 1 (by decide) rfl rfl rfl

/-- If samples have at least 8 bits or the size is a multiple of the channels, all the room is used. -/
theorem room_eq (fmt : Fmt) (size ch : Nat) (h1 : 1 ≤ ch) (h : 8 ≤ fmt.bits ∨ size % ch = 0) :
    8 * (size - size % (fmt.mask * ch)) / fmt.bits = fmt.room size ch := by
  unfold Fmt.room
  have hdm : size - size % (fmt.mask * ch) = fmt.mask * ch * (size / (fmt.mask * ch)) := by
    have := Nat.div_add_mod size (fmt.mask * ch)
    omega
  have small : ∀ b k : Nat, 0 < b → b * k = 8 → size % ch = 0 →
      8 * (1 * ch * (size / (1 * ch))) / b = 8 * size / (b * ch) * ch := by
    intro b k hb hk hd
    obtain ⟨q, rfl⟩ := Nat.dvd_of_mod_eq_zero hd
    rw [Nat.one_mul, Nat.mul_div_cancel_left _ (by omega), ← hk, Nat.mul_assoc b k,
      Nat.mul_div_cancel_left _ hb, Nat.mul_div_mul_left _ _ hb]
    rw [show k * (ch * q) = ch * (k * q) by rw [Nat.mul_left_comm], Nat.mul_div_cancel_left _ (by omega),
      Nat.mul_comm]
  rw [hdm]
  cases fmt
  · exact small 1 8 (by decide) rfl (h.resolve_left (by decide))
  · exact small 2 4 (by decide) rfl (h.resolve_left (by decide))
  · exact small 4 2 (by decide) rfl (h.resolve_left (by decide))
  · show 8 * (1 * ch * (size / (1 * ch))) / 8 = 8 * size / (8 * ch) * ch
    rw [Nat.mul_div_cancel_left _ (by decide), Nat.mul_div_mul_left _ _ (by decide), Nat.one_mul, Nat.mul_comm]
  · show 8 * (1 * ch * (size / (1 * ch))) / 8 = 8 * size / (8 * ch) * ch
    rw [Nat.mul_div_cancel_left _ (by decide), Nat.mul_div_mul_left _ _ (by decide), Nat.one_mul, Nat.mul_comm]
  · show 8 * (2 * ch * (size / (2 * ch))) / 16 = 8 * size / (16 * ch) * ch
    rw [show 16 * ch = 8 * (2 * ch) by rw [← Nat.mul_assoc], Nat.mul_div_mul_left _ _ (by decide),
      show 8 * (2 * ch * (size / (2 * ch))) = 16 * (ch * (size / (2 * ch))) by
        simp only [← Nat.mul_assoc],
      Nat.mul_div_cancel_left _ (by decide), Nat.mul_comm]

end BK
