import Verif.Lemmas.Server
import Verif.Lemmas.Bincode

/-! From the response vector to the response bytes (helper lemmas). -/

namespace Chalamet
open Spec

theorem width_le_size (T b : Nat) (hb : 1 ≤ b) : width T b ≤ T := by
  unfold width
  rcases Nat.eq_zero_or_pos T with rfl | hT
  · rw [Nat.div_eq_of_lt (by omega)]
  · rw [Nat.div_le_iff_le_mul_add_pred hb]
    have := Nat.mul_le_mul_left T hb
    rw [mul_comm T b] at this
    omega

/-- A response vector that exists is sent, and read back unchanged. -/
theorem shard_respond_bytes {s : Shard} {q resp : List U32} (hT : s.db.elemSize < 2 ^ 64) (h : s.answer q = .ok resp) :
    ∃ bytes, s.respond q = .ok bytes ∧ bincodeDeserialize bytes = .ok resp := by
  refine ⟨bincodeSerialize resp, by rw [Shard.respond, h]; rfl, ?_⟩
  have hl : resp.length < 2 ^ 64 := by
    rw [Shard.answer] at h
    obtain ⟨w, hw, h⟩ := Res.bind_eq_ok.1 h
    have hw' : getRowWidth s.db.elemSize s.db.plaintextBits = .ok w := hw
    rw [mapRes_length h, List.length_range]
    rcases Nat.eq_zero_or_pos s.db.plaintextBits with hb | hb
    · rw [hb] at hw'
      simp [getRowWidth] at hw'
    · rw [getRowWidth_ok hb] at hw'
      cases hw'
      exact lt_of_le_of_lt (width_le_size _ _ hb) hT
  have := bincodeDeserialize_serialize resp [] hl
  simpa using this

theorem kvShard_respond_bytes {s : KVShard} {q resp : List U32} (hT : s.db.elemSize < 2 ^ 64) (h : s.answer q = .ok resp) :
    ∃ bytes, s.respond q = .ok bytes ∧ bincodeDeserialize bytes = .ok resp := by
  refine ⟨bincodeSerialize resp, by rw [KVShard.respond, h]; rfl, ?_⟩
  have hl : resp.length < 2 ^ 64 := by
    rw [KVShard.answer] at h
    obtain ⟨w, hw, h⟩ := Res.bind_eq_ok.1 h
    have hw' : getRowWidth s.db.elemSize s.db.plaintextBits = .ok w := hw
    rw [mapRes_length h, List.length_range]
    rcases Nat.eq_zero_or_pos s.db.plaintextBits with hb | hb
    · rw [hb] at hw'
      simp [getRowWidth] at hw'
    · rw [getRowWidth_ok hb] at hw'
      cases hw'
      exact lt_of_le_of_lt (width_le_size _ _ hb) hT
  have := bincodeDeserialize_serialize resp [] hl
  simpa using this

theorem kvShard_elemSize {prof : Profile} {prg : Prg} {pseed : List U8} {segExp cap0 : Nat}
    {fp0 : Nat → Nat → U32} {seed : List U8} {kvs : List KeyValue} {n m T b : Nat} {shard : KVShard}
    (hsh : KVShard.new prof prg pseed segExp cap0 fp0 seed kvs n m T b = .ok shard) : shard.db.elemSize = T := by
  unfold KVShard.new KVDatabase.new at hsh
  obtain ⟨db, hdb, hnew⟩ := Res.bind_eq_ok.1 hsh
  obtain ⟨bp, hbp, hnew⟩ := Res.bind_eq_ok.1 hnew
  cases hnew
  obtain ⟨f, hf, hdb⟩ := Res.bind_eq_ok.1 hdb
  obtain ⟨c, hc, hdb⟩ := Res.bind_eq_ok.1 hdb
  obtain ⟨d, hd, hdb⟩ := Res.bind_eq_ok.1 hdb
  cases hdb
  rfl

end Chalamet
