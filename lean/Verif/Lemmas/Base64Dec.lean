import Verif.Lemmas.Base64

/-! The decoder accepts exactly the encodings, up to missing trailing padding (helper lemmas). -/

namespace Chalamet

theorem b64Val_some {c : Char} {v : Nat} (h : b64Val c = some v) : v < 64 ∧ c = b64Char v := by
  unfold b64Val at h
  have hc : Char.ofNat c.toNat = c := Char.ofNat_toNat c
  dsimp only at h
  unfold b64Char
  split at h
  · cases h
    refine ⟨by omega, ?_⟩
    rw [if_pos (by omega), show 65 + (c.toNat - 65) = c.toNat by omega, hc]
  · split at h
    · cases h
      refine ⟨by omega, ?_⟩
      rw [if_neg (by omega), if_pos (by omega),
        show 97 + (c.toNat - 97 + 26 - 26) = c.toNat by omega, hc]
    · split at h
      · cases h
        refine ⟨by omega, ?_⟩
        rw [if_neg (by omega), if_neg (by omega), if_pos (by omega),
          show 48 + (c.toNat - 48 + 52 - 52) = c.toNat by omega, hc]
      · split at h
        · cases h
          refine ⟨by omega, ?_⟩
          rw [← hc]; rename_i h43; rw [h43]; decide
        · split at h
          · cases h
            refine ⟨by omega, ?_⟩
            rw [← hc]; rename_i h47; rw [h47]; decide
          · cases h

theorem b64Val_pad : b64Val '=' = none := by decide

theorem b64Tail_two {x y : Char} {e : List U8} (h : b64Tail [x, y] = .ok e) :
    b64Encode e = [x, y, '=', '='] := by
  rw [b64Tail] at h
  cases hx : b64Val x with
  | none => simp [hx] at h
  | some vx =>
    cases hy : b64Val y with
    | none => simp [hx, hy] at h
    | some vy =>
      simp only [hx, hy] at h
      split at h
      · cases h
        obtain ⟨h1, rfl⟩ := b64Val_some hx
        obtain ⟨h2, rfl⟩ := b64Val_some hy
        rw [b64Encode, BitVec.toNat_ofNat]
        have e1 : (vx * 64 + vy) / 16 % 2 ^ 8 * 16 / 64 = vx := by omega
        have e2 : (vx * 64 + vy) / 16 % 2 ^ 8 * 16 % 64 = vy := by omega
        simp only [e1, e2]
      · cases h

theorem b64Tail_three {x y z : Char} {e : List U8} (h : b64Tail [x, y, z] = .ok e) :
    b64Encode e = [x, y, z, '='] := by
  rw [b64Tail] at h
  cases hx : b64Val x with
  | none => simp [hx] at h
  | some vx =>
    cases hy : b64Val y with
    | none => simp [hx, hy] at h
    | some vy =>
      cases hz : b64Val z with
      | none => simp [hx, hy, hz] at h
      | some vz =>
        simp only [hx, hy, hz] at h
        split at h
        · cases h
          obtain ⟨h1, rfl⟩ := b64Val_some hx
          obtain ⟨h2, rfl⟩ := b64Val_some hy
          obtain ⟨h3, rfl⟩ := b64Val_some hz
          rw [b64Encode, BitVec.toNat_ofNat, BitVec.toNat_ofNat]
          have e1 : (((vx * 64 + vy) * 64 + vz) / 1024 % 2 ^ 8 * 256 +
            ((vx * 64 + vy) * 64 + vz) / 4 % 2 ^ 8) * 4 = (vx * 64 + vy) * 64 + vz := by omega
          simp only [e1]
          rw [show ((vx * 64 + vy) * 64 + vz) / 4096 = vx by omega,
            show ((vx * 64 + vy) * 64 + vz) / 64 % 64 = vy by omega,
            show ((vx * 64 + vy) * 64 + vz) % 64 = vz by omega]
        · cases h

theorem b64Tail_ok {l : List Char} {e : List U8} (h : b64Tail l = .ok e) :
    ∃ k, b64Encode e = l ++ List.replicate k '=' := by
  match l, h with
  | [], h => cases h; exact ⟨0, rfl⟩
  | [_], h => cases h
  | [x, y], h => exact ⟨2, b64Tail_two h⟩
  | [x, y, z], h => exact ⟨1, b64Tail_three h⟩
  | _ :: _ :: _ :: _ :: _, h => cases h

theorem b64Decode_sound (s : List Char) : ∀ e, b64Decode s = .ok e →
    ∃ k, b64Encode e = s ++ List.replicate k '=' := by
  induction s using b64Decode.induct with
  | case1 => intro e h; cases h; exact ⟨0, rfl⟩
  | case2 x y =>
    intro e h
    rw [b64Decode_pad2] at h
    exact ⟨0, b64Tail_two h⟩
  | case3 x y z hz =>
    intro e h
    rw [b64Decode_pad1 hz] at h
    exact ⟨0, b64Tail_three h⟩
  | case4 x y =>
    intro e h
    rw [b64Decode] at h
    exact ⟨1, b64Tail_two h⟩
  | case5 x y z w rest h1 h2 a b c d hd hc hb ha ih =>
    intro e h
    have hw : w ≠ '=' := by rintro rfl; rw [b64Val_pad] at hd; cases hd
    rw [b64Decode_four hw, ha, hb, hc, hd] at h
    dsimp only at h
    obtain ⟨bs, hbs, h⟩ := Res.bind_eq_ok.1 h
    cases h
    obtain ⟨k, hk⟩ := ih bs hbs
    refine ⟨k, ?_⟩
    obtain ⟨h1, rfl⟩ := b64Val_some ha
    obtain ⟨h2, rfl⟩ := b64Val_some hb
    obtain ⟨h3, rfl⟩ := b64Val_some hc
    obtain ⟨h4, rfl⟩ := b64Val_some hd
    rw [b64Encode, hk, BitVec.toNat_ofNat, BitVec.toNat_ofNat, BitVec.toNat_ofNat]
    have e1 : ((((a * 64 + b) * 64 + c) * 64 + d) / 65536 % 2 ^ 8 * 256 +
      (((a * 64 + b) * 64 + c) * 64 + d) / 256 % 2 ^ 8) * 256 +
      (((a * 64 + b) * 64 + c) * 64 + d) % 2 ^ 8 = ((a * 64 + b) * 64 + c) * 64 + d := by omega
    simp only [e1]
    rw [show (((a * 64 + b) * 64 + c) * 64 + d) / 262144 = a by omega,
      show (((a * 64 + b) * 64 + c) * 64 + d) / 4096 % 64 = b by omega,
      show (((a * 64 + b) * 64 + c) * 64 + d) / 64 % 64 = c by omega,
      show (((a * 64 + b) * 64 + c) * 64 + d) % 64 = d by omega]
    rfl
  | case6 x y z w rest h1 h2 h3 =>
    intro e h
    exfalso
    rw [b64Decode] at h
    · split at h
      · rename_i a b c d ha hb hc hd
        exact h3 _ _ _ _ ha hb hc hd
      · cases h
    · exact h1
    · exact h2
  | case7 l h1 h2 h3 h4 h5 =>
    intro e h
    rw [b64Decode] at h
    · exact b64Tail_ok h
    all_goals assumption

/-- Removing trailing padding from an encoding does not change what it decodes to. -/
theorem b64Decode_unpadded (e : List U8) : ∀ s k, b64Encode e = s ++ List.replicate k '=' →
    b64Decode s = .ok e := by
  induction e using b64Encode.induct with
  | case1 =>
    intro s k h
    rw [b64Encode] at h
    have : s = [] := by
      have := congrArg List.length h
      simp at this
      exact List.length_eq_zero_iff.1 (by omega)
    subst this; rfl
  | case2 a =>
    intro s k h
    have hfull := b64Decode_encode [a]
    rw [b64Encode] at h hfull
    have ha := a.isLt
    have h1 := b64Val_char (a.toNat * 16 / 64) (by omega)
    have h2 := b64Val_char (a.toNat * 16 % 64) (by omega)
    generalize b64Char (a.toNat * 16 / 64) = x at *
    generalize b64Char (a.toNat * 16 % 64) = y at *
    have hlen := congrArg List.length h
    rw [b64Decode_pad2] at hfull
    match s, h, hlen with
    | [], h, hlen =>
      simp at hlen; subst hlen
      simp [List.replicate] at h; exact absurd h.1 h1.2
    | [x'], h, hlen =>
      have hk : k = 3 := by simp at hlen; omega
      subst hk
      simp [List.replicate] at h; exact absurd h.2 h2.2
    | [x', y'], h, hlen =>
      have hk : k = 2 := by simp at hlen; omega
      subst hk
      simp [List.replicate] at h
      obtain ⟨rfl, rfl⟩ := h
      rw [b64Decode]
      · exact hfull
      all_goals (intros; simp_all)
    | [x', y', z'], h, hlen =>
      have hk : k = 1 := by simp at hlen; omega
      subst hk
      simp [List.replicate] at h
      obtain ⟨rfl, rfl, rfl⟩ := h
      rw [b64Decode]; exact hfull
    | [x', y', z', w'], h, hlen =>
      have hk : k = 0 := by simp at hlen; omega
      subst hk
      simp [List.replicate] at h
      obtain ⟨rfl, rfl, rfl, rfl⟩ := h
      rw [b64Decode_pad2]; exact hfull
    | _ :: _ :: _ :: _ :: _ :: _, h, hlen => simp at hlen
  | case3 a b =>
    intro s k h
    have hfull := b64Decode_encode [a, b]
    rw [b64Encode] at h hfull
    have ha := a.isLt
    have hb := b.isLt
    have h1 := b64Val_char ((a.toNat * 256 + b.toNat) * 4 / 4096) (by omega)
    have h2 := b64Val_char ((a.toNat * 256 + b.toNat) * 4 / 64 % 64) (by omega)
    have h3 := b64Val_char ((a.toNat * 256 + b.toNat) * 4 % 64) (by omega)
    generalize b64Char ((a.toNat * 256 + b.toNat) * 4 / 4096) = x at *
    generalize b64Char ((a.toNat * 256 + b.toNat) * 4 / 64 % 64) = y at *
    generalize b64Char ((a.toNat * 256 + b.toNat) * 4 % 64) = z at *
    have hlen := congrArg List.length h
    rw [b64Decode_pad1 h3.2] at hfull
    match s, h, hlen with
    | [], h, hlen =>
      simp at hlen; subst hlen
      simp [List.replicate] at h; exact absurd h.1 h1.2
    | [x'], h, hlen =>
      have hk : k = 3 := by simp at hlen; omega
      subst hk
      simp [List.replicate] at h; exact absurd h.2.1 h2.2
    | [x', y'], h, hlen =>
      have hk : k = 2 := by simp at hlen; omega
      subst hk
      simp [List.replicate] at h; exact absurd h.2.2 h3.2
    | [x', y', z'], h, hlen =>
      have hk : k = 1 := by simp at hlen; omega
      subst hk
      simp [List.replicate] at h
      obtain ⟨rfl, rfl, rfl⟩ := h
      rw [b64Decode]
      · exact hfull
      all_goals (intros; simp_all)
    | [x', y', z', w'], h, hlen =>
      have hk : k = 0 := by simp at hlen; omega
      subst hk
      simp [List.replicate] at h
      obtain ⟨rfl, rfl, rfl, rfl⟩ := h
      rw [b64Decode_pad1 h3.2]; exact hfull
    | _ :: _ :: _ :: _ :: _ :: _, h, hlen => simp at hlen
  | case4 a b c rest ih =>
    intro s k h
    have hfull := b64Decode_encode (a :: b :: c :: rest)
    rw [b64Encode] at h hfull
    have ha := a.isLt
    have hb := b.isLt
    have hc := c.isLt
    have h1 := b64Val_char (((a.toNat * 256 + b.toNat) * 256 + c.toNat) / 262144) (by omega)
    have h2 := b64Val_char (((a.toNat * 256 + b.toNat) * 256 + c.toNat) / 4096 % 64) (by omega)
    have h3 := b64Val_char (((a.toNat * 256 + b.toNat) * 256 + c.toNat) / 64 % 64) (by omega)
    have h4 := b64Val_char (((a.toNat * 256 + b.toNat) * 256 + c.toNat) % 64) (by omega)
    generalize b64Char (((a.toNat * 256 + b.toNat) * 256 + c.toNat) / 262144) = x at *
    generalize b64Char (((a.toNat * 256 + b.toNat) * 256 + c.toNat) / 4096 % 64) = y at *
    generalize b64Char (((a.toNat * 256 + b.toNat) * 256 + c.toNat) / 64 % 64) = z at *
    generalize b64Char (((a.toNat * 256 + b.toNat) * 256 + c.toNat) % 64) = w at *
    match s, h with
    | [], h =>
      cases k with
      | zero => simp at h
      | succ k => simp [List.replicate_succ] at h; exact absurd h.1 h1.2
    | [x'], h =>
      cases k with
      | zero => simp at h
      | succ k => simp [List.replicate_succ] at h; exact absurd h.2.1 h2.2
    | [x', y'], h =>
      cases k with
      | zero => simp at h
      | succ k => simp [List.replicate_succ] at h; exact absurd h.2.2.1 h3.2
    | [x', y', z'], h =>
      cases k with
      | zero => simp at h
      | succ k => simp [List.replicate_succ] at h; exact absurd h.2.2.2.1 h4.2
    | x' :: y' :: z' :: w' :: s', h =>
      simp only [List.cons_append, List.cons.injEq] at h
      obtain ⟨rfl, rfl, rfl, rfl, h⟩ := h
      have hs := ih s' k h
      rw [b64Decode_four h4.2] at hfull ⊢
      rw [b64Decode_encode rest] at hfull
      rw [hs]
      exact hfull

end Chalamet
