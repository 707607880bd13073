import Verif.Proofs.Stale
import Verif.Props.History
import Verif.Props.Formats

/-!
# C98: computed fields after changes

A computed field is meant to follow the fields it is computed from.  It does as long as no value is stored for it.  Loading stores one, and
nothing but `del` removes it.
-/

namespace Verif
open Spec Conformance
open Formats (le)

/-- **C98** An instance that was made without a value for the computed field, or from which it was deleted at some time: whatever was done
with the instance, a dump that succeeds writes what the compute function makes of the values at that moment. -/
theorem C98_follows_partial (Γ : Classes) (n : Nat) (d : StructDesc) (vals : Dict) (ops : List Op) (ctx v : Value) (bs : Bytes)
    (pre post : List Field) (f : Field) (fn : View → Except Err Value) (hd : UniqueNames d) (hi : Instance d vals)
    (hf : d.components = pre ++ f :: post) (hfn : f.base.computeFn = some fn) (hdflt : f.base.dflt = .undefined)
    (hdisc : f.base.discard = false) (hnone : Dict.get? vals f.name = none ∨ Op.del f.name ∈ ops)
    (hp : PresentFor Γ n d (history d vals ops) ctx f) (hv : fn (structView d (history d vals ops)) = .ok v)
    (h1 : v ≠ .notPresent) (h2 : v ≠ .undefined) (h : structToStream Γ (n + 1) d (history d vals ops) ctx = (bs, .ok ())) :
    ∃ all before p after w, structToDict Γ n d (history d vals ops) = .ok all ∧ recursiveToDicts Γ n v = .ok w ∧
      Parts Γ n ctx all pre before ∧ fieldToStream Γ n f w ctx all = (p, .ok ()) ∧ Parts Γ n ctx all post after ∧
      bs = before.flatten ++ p ++ after.flatten := by
  have hfm : f ∈ d.components := by rw [hf]; simp
  have him : Immutable f := Or.inl (by rw [hfn]; rfl)
  have hi' := history_instance hd hi ops
  have hno : Dict.get? (history d vals ops) f.name = none := by
    by_cases hx : Op.del f.name ∈ ops
    · exact (C34_history d vals ops f hd hi hfm him).1 hx
    · rw [(C34_history d vals ops f hd hi hfm him).2 hx]
      exact hnone.resolve_right hx
  have hc : structContains (history d vals ops) f.name = false := by
    rw [← Bool.not_eq_true, structContains_iff hi'.1]
    rintro ⟨w, h3, -⟩
    rw [hno] at h3; cases h3
  exact C32_struct_dumps_chosen_value Γ n d _ ctx v bs pre post f hd hi' hf hdisc hp (.computed hc hdflt hfn hv) h1 h2 h

/-- **C98** A loaded instance, whatever was done with it short of deleting the computed field: a dump that succeeds writes the value that was
loaded. -/
theorem C98_loaded_stays (Γ : Classes) (n m : Nat) (d : StructDesc) (s s' : Stream) (r : Dict) (ops : List Op) (ctx ctx' v : Value) (bs : Bytes)
    (pre post : List Field) (f : Field) (hd : UniqueNames d) (hf : d.components = pre ++ f :: post) (hcomp : f.base.computeFn.isSome)
    (hdisc : f.base.discard = false) (hload : structFromStream Γ (m + 1) d s ctx' [] = (.ok r, s')) (hv : Dict.get? r f.name = some v)
    (hdel : Op.del f.name ∉ ops) (hp : PresentFor Γ n d (history d r ops) ctx f) (h1 : v ≠ .notPresent) (h2 : v ≠ .undefined)
    (h : structToStream Γ (n + 1) d (history d r ops) ctx = (bs, .ok ())) :
    ∃ all before p after w, structToDict Γ n d (history d r ops) = .ok all ∧ recursiveToDicts Γ n v = .ok w ∧ (NoStruct v → w = v) ∧
      Parts Γ n ctx all pre before ∧ fieldToStream Γ n f w ctx all = (p, .ok ()) ∧ Parts Γ n ctx all post after ∧
      bs = before.flatten ++ p ++ after.flatten := by
  have hfm : f ∈ d.components := by rw [hf]; simp
  have hi := (loaded_stored hd hload).1
  have hst : Dict.get? (history d r ops) f.name = some v := by
    rw [(C34_history d r ops f hd hi hfm (Or.inl hcomp)).2 hdel, hv]
  exact C38_explicit_value_dumped_partial Γ n d _ ctx v bs pre post f hd (history_instance hd hi ops) hf hdisc hp hst h1 h2 h

/-- **C98** (refuted) The format chunk of a WAV file, loaded, given another sampling rate and saved: the byte rate, which is computed from the
sampling rate, stays as it was.  Nothing is raised, and assigning the right byte rate is not possible. -/
theorem C98_wav_rate_refuted (Γ : Classes) (n : Nat) (ctx : Value) (a c r b r' : Int)
    (ha : InRange 2 false a) (hc : InRange 2 false c) (hr : InRange 4 false r) (hb : InRange 2 false b)
    (h1 : InRange 4 false (r * c * b / 8)) (h2 : InRange 2 false (c * b / 8)) (hr' : InRange 4 false r') :
    ∃ loaded changed, structFromStream Γ (n + 4) Formats.wavFormat ⟨Formats.formatChunk a c r b, 0⟩ ctx [] =
        (.ok loaded, ⟨Formats.formatChunk a c r b, 24⟩) ∧
      structSetItem Formats.wavFormat loaded "sample_rate" (.int r') = (.ok (), changed) ∧
      (∀ v, structSetItem Formats.wavFormat changed "byte_rate" v = (.error (.immutableField "byte_rate"), changed)) ∧
      structToStream Γ (n + 4) Formats.wavFormat changed ctx =
        (List.flatten [b!"fmt ", le 4 16, le 2 a, le 2 c, le 4 r', le 4 (r * c * b / 8), le 2 (c * b / 8), le 2 b], .ok ()) := by
  have h := (C97_wav_format Γ n ctx a c r b ha hc hr hb h1 h2).2 [] []
  refine ⟨[("chunk_id", .bytes b!"fmt "), ("size", .int 16), ("audio_format", .int a), ("n_channels", .int c), ("sample_rate", .int r),
        ("byte_rate", .int (r * c * b / 8)), ("block_alignment", .int (c * b / 8)), ("bits_per_sample", .int b)], [("chunk_id", .bytes b!"fmt "), ("size", .int 16), ("audio_format", .int a), ("n_channels", .int c), ("sample_rate", .int r'),
        ("byte_rate", .int (r * c * b / 8)), ("block_alignment", .int (c * b / 8)), ("bits_per_sample", .int b)], ?_, rfl, fun _ => rfl, ?_⟩
  · simpa [Formats.formatChunk] using h
  · refine structToStream_parts (all := [("chunk_id", .bytes b!"fmt "), ("size", .int 16), ("audio_format", .int a), ("n_channels", .int c), ("sample_rate", .int r'),
        ("byte_rate", .int (r * c * b / 8)), ("block_alignment", .int (c * b / 8)), ("bits_per_sample", .int b)]) (by kernel_rfl) (by kernel_rfl)
      (.cons ?_ (.cons ?_ (.cons ?_ (.cons ?_ (.cons ?_ (.cons ?_ (.cons ?_ (.cons ?_ (.nil)))))))))
    · exact part_bytes _ rfl (Or.inl rfl) rfl
    · exact part_int 4 _ rfl rfl (by decide) rfl (by unfold InRange; decide)
    · exact part_int 2 _ rfl rfl (by decide) rfl ha
    · exact part_int 2 _ rfl rfl (by decide) rfl hc
    · exact part_int 4 _ rfl rfl (by decide) rfl hr'
    · exact part_int 4 _ rfl rfl (by decide) rfl h1
    · exact part_int 2 _ rfl rfl (by decide) rfl h2
    · exact part_int 2 _ rfl rfl (by decide) rfl hb

/-- **C98** (refuted) The data chunk, loaded, given audio of another length and saved: an error, after the name and the old size were
written. -/
theorem C98_wav_data_refuted (Γ : Classes) (n : Nat) (ctx : Value) (audio audio' : Bytes) (h : audio.length < 2 ^ 32)
    (hne : audio'.length ≠ audio.length) :
    ∃ loaded changed, structFromStream Γ (n + 4) Formats.wavData ⟨b!"data" ++ le 4 audio.length ++ audio, 0⟩ ctx [] =
        (.ok loaded, ⟨b!"data" ++ le 4 audio.length ++ audio, audio.length + 8⟩) ∧
      structSetItem Formats.wavData loaded "audio_data" (.bytes audio') = (.ok (), changed) ∧
      structToStream Γ (n + 4) Formats.wavData changed ctx = (b!"data" ++ le 4 audio.length, .error (.valueSize "audio_data")) := by
  have h' := (C97_wav_data Γ n audio ctx h).2 [] []
  have hi : InRange 4 false (audio.length : Int) := by unfold InRange; simp; omega
  refine ⟨_, [("chunk_id", .bytes b!"data"), ("size", .int audio.length), ("audio_data", .bytes audio')], by simpa using h', rfl, ?_⟩
  refine (structToStream_fails (n := n + 3) (ps := [b!"data", le 4 audio.length]) (v := .bytes audio') (pre := Formats.wavData.components.take 2)
    (all := [("chunk_id", .bytes b!"data"), ("size", .int audio.length), ("audio_data", .bytes audio')]) (e := .valueSize "audio_data") rfl rfl rfl
    (.cons (part_bytes _ rfl (Or.inl rfl) rfl) (.cons (part_int 4 _ rfl rfl (by decide) rfl hi) .nil)) rfl (by simp) ?_).trans (by simp)
  exact bytes_wrong_size (b := { name := "audio_data", typeName := "Bytes", size := .ref "size", index := 2, offset := some 8 }) (k := audio.length)
    ⟨"size", rfl, rfl⟩ rfl hne
/-- **C98** With the byte rate deleted it is right. -/
theorem C98_wav_rate_deleted (Γ : Classes) (n : Nat) (ctx : Value) (a c r b r' : Int)
    (ha : InRange 2 false a) (hc : InRange 2 false c) (hr : InRange 4 false r) (hb : InRange 2 false b)
    (h1 : InRange 4 false (r * c * b / 8)) (h2 : InRange 2 false (c * b / 8)) (hr' : InRange 4 false r')
    (h1' : InRange 4 false (r' * c * b / 8)) :
    ∃ loaded, structFromStream Γ (n + 4) Formats.wavFormat ⟨Formats.formatChunk a c r b, 0⟩ ctx [] =
        (.ok loaded, ⟨Formats.formatChunk a c r b, 24⟩) ∧
      structToStream Γ (n + 4) Formats.wavFormat
        (history Formats.wavFormat loaded [.set "sample_rate" (.int r'), .del "byte_rate"]) ctx = (Formats.formatChunk a c r' b, .ok ()) := by
  have h := (C97_wav_format Γ n ctx a c r b ha hc hr hb h1 h2).2 [] []
  refine ⟨[("chunk_id", .bytes b!"fmt "), ("size", .int 16), ("audio_format", .int a), ("n_channels", .int c), ("sample_rate", .int r),
        ("byte_rate", .int (r * c * b / 8)), ("block_alignment", .int (c * b / 8)), ("bits_per_sample", .int b)], ?_, ?_⟩
  · simpa [Formats.formatChunk] using h
  · refine structToStream_parts (all := [("chunk_id", .bytes b!"fmt "), ("size", .int 16), ("audio_format", .int a), ("n_channels", .int c),
        ("sample_rate", .int r'), ("block_alignment", .int (c * b / 8)), ("bits_per_sample", .int b), ("byte_rate", .int (r' * c * b / 8))])
      (by kernel_rfl) (by kernel_rfl)
      (.cons ?_ (.cons ?_ (.cons ?_ (.cons ?_ (.cons ?_ (.cons ?_ (.cons ?_ (.cons ?_ (.nil)))))))))
    · exact part_bytes _ rfl (Or.inl rfl) rfl
    · exact part_int 4 _ rfl rfl (by decide) rfl (by unfold InRange; decide)
    · exact part_int 2 _ rfl rfl (by decide) rfl ha
    · exact part_int 2 _ rfl rfl (by decide) rfl hc
    · exact part_int 4 _ rfl rfl (by decide) rfl hr'
    · exact part_int 4 _ rfl rfl (by decide) rfl h1'
    · exact part_int 2 _ rfl rfl (by decide) rfl h2
    · exact part_int 2 _ rfl rfl (by decide) rfl hb

/-- **C98** (refuted) The full statement, for reading the field: it is not so that a computed field always is what its function makes of the
current values. -/
theorem C98_follows_refuted :
    ¬ ∀ (Γ : Classes) (n : Nat) (d : StructDesc) (s s' : Stream) (ctx : Value) (r : Dict) (ops : List Op) (f : Field)
      (fn : View → Except Err Value) (v : Value), UniqueNames d → f ∈ d.components → f.base.computeFn = some fn →
      structFromStream Γ n d s ctx [] = (.ok r, s') → fn (structView d (history d r ops)) = .ok v →
      structGetItem d (history d r ops) f.name = .ok v := by
  intro h
  have h1 := (C97_wav_format Sample.noClasses 1 .none 1 2 44100 16 (by unfold InRange; decide) (by unfold InRange; decide)
    (by unfold InRange; decide) (by unfold InRange; decide) (by unfold InRange; decide) (by unfold InRange; decide)).2 [] []
  have h2 := h _ _ _ _ _ _ _ [.set "sample_rate" (.int 48000)] _ byteRate (.int 192000) (show (names Formats.wavFormat).Nodup by decide)
    (show Formats.wavFormat.components[5] ∈ Formats.wavFormat.components from List.getElem_mem _) rfl h1 rfl
  have h3 : Except.ok (Value.int 176400) = (Except.ok (Value.int 192000) : Except Err Value) := h2
  simp at h3

-- an instance that was not loaded, changed twice: what is written is computed from the last value
example (ctx : Value) : structToStream Sample.noClasses 5 Formats.wavFormat
      (history Formats.wavFormat [("audio_format", .int 1), ("n_channels", .int 2), ("sample_rate", .int 44100), ("bits_per_sample", .int 16)]
        [.set "sample_rate" (.int 8000), .set "byte_rate" (.int 7), .set "sample_rate" (.int 48000)]) ctx =
    (Formats.formatChunk 1 2 48000 16, .ok ()) :=
  (C97_wav_format Sample.noClasses 1 ctx 1 2 48000 16 (by unfold InRange; decide) (by unfold InRange; decide)
    (by unfold InRange; decide) (by unfold InRange; decide) (by unfold InRange; decide) (by unfold InRange; decide)).1

-- the hypotheses of C98_follows_partial and C98_loaded_stays are met by these
example (ctx : Value) : ∃ all before p after w,
    structToDict Sample.noClasses 4 Formats.wavFormat
      (history Formats.wavFormat [("audio_format", .int 1), ("n_channels", .int 2), ("sample_rate", .int 44100), ("bits_per_sample", .int 16)]
        [.set "sample_rate" (.int 48000)]) = .ok all ∧
    recursiveToDicts Sample.noClasses 4 (.int 192000) = .ok w ∧
    Parts Sample.noClasses 4 ctx all (Formats.wavFormat.components.take 5) before ∧
    fieldToStream Sample.noClasses 4 Formats.wavFormat.components[5] w ctx all = (p, .ok ()) ∧
    Parts Sample.noClasses 4 ctx all (Formats.wavFormat.components.drop 6) after ∧
    Formats.formatChunk 1 2 48000 16 = before.flatten ++ p ++ after.flatten :=
  C98_follows_partial Sample.noClasses 4 Formats.wavFormat _ [.set "sample_rate" (.int 48000)] ctx (.int 192000) _ _ _ Formats.wavFormat.components[5]
    byteRate (show (names Formats.wavFormat).Nodup by decide) ⟨by decide, by decide⟩ rfl rfl rfl rfl (Or.inl rfl) ⟨rfl, fun _ _ => rfl⟩ rfl
    (by simp) (by simp)
    (C97_wav_format Sample.noClasses 1 ctx 1 2 48000 16 (by unfold InRange; decide) (by unfold InRange; decide)
      (by unfold InRange; decide) (by unfold InRange; decide) (by unfold InRange; decide) (by unfold InRange; decide)).1

example (ctx : Value) : ∃ loaded all before p after,
    structFromStream Sample.noClasses 5 Formats.wavFormat ⟨Formats.formatChunk 1 2 44100 16, 0⟩ ctx [] =
      (.ok loaded, ⟨Formats.formatChunk 1 2 44100 16, 24⟩) ∧
    structToDict Sample.noClasses 4 Formats.wavFormat (history Formats.wavFormat loaded [.set "sample_rate" (.int 48000)]) = .ok all ∧
    Parts Sample.noClasses 4 ctx all (Formats.wavFormat.components.take 5) before ∧
    fieldToStream Sample.noClasses 4 Formats.wavFormat.components[5] (.int 176400) ctx all = (p, .ok ()) ∧
    Parts Sample.noClasses 4 ctx all (Formats.wavFormat.components.drop 6) after := by
  obtain ⟨loaded, changed, h1, h2, -, h3⟩ := C98_wav_rate_refuted Sample.noClasses 1 ctx 1 2 44100 16 48000 (by unfold InRange; decide)
    (by unfold InRange; decide) (by unfold InRange; decide) (by unfold InRange; decide) (by unfold InRange; decide) (by unfold InRange; decide)
    (by unfold InRange; decide)
  have h4 := (C97_wav_format Sample.noClasses 1 ctx 1 2 44100 16 (by unfold InRange; decide) (by unfold InRange; decide)
    (by unfold InRange; decide) (by unfold InRange; decide) (by unfold InRange; decide) (by unfold InRange; decide)).2 [] []
  have h5 := congrArg Prod.fst (h1.symm.trans h4)
  injection h5 with h5
  have h6 : history Formats.wavFormat loaded [.set "sample_rate" (.int 48000)] = changed := by simp only [history, Op.run, h2]
  obtain ⟨all, before, p, after, w, g1, -, g2, g3, g4, g5, -⟩ := C98_loaded_stays Sample.noClasses 4 4 Formats.wavFormat _ _ loaded
    [.set "sample_rate" (.int 48000)] ctx ctx (.int 176400) _ (Formats.wavFormat.components.take 5) (Formats.wavFormat.components.drop 6)
    Formats.wavFormat.components[5] (show (names Formats.wavFormat).Nodup by decide) rfl rfl rfl h1 (by rw [h5]; rfl) (by simp)
    ⟨rfl, fun _ _ => rfl⟩ (by simp) (by simp) (by rw [h6]; exact h3)
  have := g2 (.int _)
  subst this
  exact ⟨loaded, all, before, p, after, h1, g1, g3, g4, g5⟩

end Verif
