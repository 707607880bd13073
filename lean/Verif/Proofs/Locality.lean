import Verif.Spec.Locality
import Verif.Proofs.StructLoad
import Verif.Props.VarInt
import Verif.Proofs.Text

/-! Helper lemmas: what a load looks at. -/

namespace Verif
open Spec

/-! ### Going forwards -/

theorem read_forward (s : Stream) (n : Int) (h : s.pos ≤ s.data.length) :
    (s.read n).2.data = s.data ∧ s.pos ≤ (s.read n).2.pos ∧ (s.read n).2.pos ≤ s.data.length := by
  simp only [Stream.read]
  refine ⟨trivial, by omega, ?_⟩
  split <;> simp <;> omega

theorem readExactSize_forward (name : String) (e : Except Err Int) : Forward (readExactSize name e) := by
  intro s h
  cases e with
  | error e => exact ⟨rfl, Nat.le_refl _, h⟩
  | ok n =>
    have := read_forward s n h
    simp only [readExactSize]
    split <;> exact this

theorem readInt_forward (n : Int) (signed : Bool) (e : Endian) : Forward fun s => readInt s n signed e := by
  intro s h
  have := read_forward s n h
  simp only [readInt]
  split <;> exact this

theorem decode_forward (e : VarIntEncoding) : Forward e.decode := by
  intro s h
  rcases C07_decode_exhaustive s with ⟨code, post, hr, hd⟩ | hh
  · rw [C07_decode_delimited e s code post hd hr]
    have : s.rest.length = code.length + post.length := by rw [hr]; simp
    simp only [Stream.rest, List.length_drop] at this
    exact ⟨rfl, by simp, by simp; omega⟩
  · rw [C07_decode_truncated e s hh]
    refine ⟨rfl, by simp, ?_⟩
    simp [Stream.rest]; omega

theorem stringzLoop_forward (name : String) (codec : CharCodec) (max : Option Int) (s : Stream) (h : s.pos ≤ s.data.length) :
    (stringzLoop name codec max s.rest.length 0 [] [] s).2.data = s.data ∧
    s.pos ≤ (stringzLoop name codec max s.rest.length 0 [] [] s).2.pos ∧
    (stringzLoop name codec max s.rest.length 0 [] [] s).2.pos ≤ s.data.length := by
  obtain ⟨used, rest, h1, h2, -⟩ := stringzLoop_bound (name := name) (k := codec) (max := max) s.rest.length 0 [] [] s (Nat.le_refl _)
  rw [h2]
  have : s.rest.length = used.length + rest.length := by rw [h1]; simp
  simp only [Stream.rest, List.length_drop] at this
  exact ⟨rfl, by simp, by simp; omega⟩

theorem Spec.Forward.map {α β : Type} {load : Stream → R α} (h : Forward load) (g : α → β) : Forward fun s => R.map (load s) g := h
theorem Spec.Forward.andThen {α β : Type} {load : Stream → R α} (h : Forward load) (g : α → Except Err β) :
    Forward fun s => R.andThen (load s) g := h

theorem leafLoad_forward {b : FieldBase} {k : Leaf} (hf : LoadsForward (.leaf b k)) (e : Except Err Int) (ctx : Value)
    (loaded : Dict) : Forward fun s => leafLoad b k e s ctx loaded := by
  cases hf with
  | leaf hc =>
  have hstop : ∀ (err : Err), Forward fun s => ((.error err, s) : R Value) := fun _ s h => ⟨rfl, Nat.le_refl _, h⟩
  cases k with
  | float fmt en => exact Spec.Forward.andThen (readExactSize_forward b.name e) _
  | integer sg en =>
    cases hs : b.size with
    | fixed n => simp only [leafLoad, hs]; exact Spec.Forward.map (readInt_forward n sg en) _
    | none => simp only [leafLoad, hs]; exact hstop _
    | ref r => simp only [leafLoad, hs]; exact hstop _
  | varint enc m => exact Spec.Forward.map (decode_forward enc) _
  | timestamp res tz sg en =>
    cases e with
    | error e => exact hstop _
    | ok n => exact Spec.Forward.andThen (readInt_forward n sg en) _
  | bytes => exact Spec.Forward.map (readExactSize_forward b.name e) _
  | string c p => exact Spec.Forward.andThen (readExactSize_forward b.name e) _
  | stringz c p =>
    intro s h
    cases e with
    | ok n => exact stringzLoop_forward b.name c (some n) s h
    | error e =>
      simp only [leafLoad]
      split
      · rename_i heq; simp at heq
      · exact stringzLoop_forward b.name c none s h
      · exact ⟨rfl, Nat.le_refl _, h⟩
  | uuid fmt =>
    intro s h
    have := read_forward s fmt.size h
    simp only [leafLoad]
    split <;> exact this
  | custom ops => exact hc ops rfl ctx loaded

/-- After a step forwards, a further step forwards. -/
theorem forward_step {s t u : Stream} (h1 : t.data = s.data ∧ s.pos ≤ t.pos ∧ t.pos ≤ s.data.length)
    (h2 : t.pos ≤ t.data.length → u.data = t.data ∧ t.pos ≤ u.pos ∧ u.pos ≤ t.data.length) :
    u.data = s.data ∧ s.pos ≤ u.pos ∧ u.pos ≤ s.data.length := by
  have := h2 (by rw [h1.1]; exact h1.2.2)
  rw [h1.1] at this
  exact ⟨this.1, by omega, this.2.2⟩

theorem loadAndFinish_forward {b : FieldBase} {eq : Value → Value → Except Err Bool} {doLoad : Stream → R Value}
    (h : Forward doLoad) : Forward (loadAndFinish b eq doLoad) := by
  intro s hs
  have := h s hs
  unfold loadAndFinish
  split
  · rename_i e t ht; rw [ht] at this; exact this
  · rename_i v t ht; rw [ht] at this; exact this

theorem fromStreamWith_forward {b : FieldBase} {eq : Value → Value → Except Err Bool} {nullRepr : Except Err Bytes}
    {doLoad : Stream → R Value} (h : Forward doLoad) (ctx : Value) (loaded : Dict) :
    Forward fun s => fromStreamWith b eq nullRepr doLoad s ctx loaded := by
  intro s hs
  have hl := loadAndFinish_forward (b := b) (eq := eq) h s hs
  simp only [fromStreamWith]
  split
  · exact ⟨rfl, Nat.le_refl _, hs⟩
  · exact ⟨rfl, Nat.le_refl _, hs⟩
  · split
    · split
      · split
        · split
          · exact ⟨rfl, Nat.le_refl _, hs⟩
          · exact hl
        · exact ⟨rfl, Nat.le_refl _, hs⟩
      · rename_i repr
        rw [peekBytes_eq]
        simp only
        split
        · rename_i hp
          have h1 : repr.length ≤ s.rest.length := by
            have := congrArg List.length hp; simp at this; omega
          simp only [Stream.rest, List.length_drop] at h1
          have h2 : (s.seek (s.pos + repr.length)).data = s.data ∧ s.pos ≤ (s.seek (s.pos + repr.length)).pos ∧
              (s.seek (s.pos + repr.length)).pos ≤ s.data.length := ⟨rfl, by simp [Stream.seek], by simp [Stream.seek]; omega⟩
          split <;> exact h2
        · exact hl
    · exact hl

theorem loadFields_forward {load : Field → Stream → Dict → R Value} {fs : List Field}
    (h : ∀ f ∈ fs, ∀ loaded, Forward fun s => load f s loaded) (acc : Dict) : Forward (loadFields load fs acc) := by
  induction fs generalizing acc with
  | nil => intro s hs; exact ⟨rfl, Nat.le_refl _, hs⟩
  | cons f fs ih =>
    intro s hs
    have h1 := h f List.mem_cons_self acc s hs
    simp only [loadFields]
    simp only at h1
    split
    · rename_i e t ht; rw [ht] at h1; exact h1
    · rename_i v t ht; rw [ht] at h1
      exact forward_step h1 (ih (fun g hg => h g (List.mem_cons_of_mem _ hg)) _ t)

theorem structFromStreamWith_forward {load : Field → Stream → Dict → R Value} {d : StructDesc}
    (h : ∀ f ∈ d.components, ∀ loaded, Forward fun s => load f s loaded) (kw : Dict) :
    Forward fun s => structFromStreamWith load d s kw := by
  intro s hs
  have h1 := loadFields_forward h kw s hs
  simp only [structFromStreamWith]
  split
  · rename_i e t ht; rw [ht] at h1; exact h1
  · rename_i r t ht; rw [ht] at h1
    split
    · exact h1
    · split <;> exact h1

theorem arrayLoop_forward {halt : Stream → List Value → Except Err (Bool × List Value)} {load : Stream → R Value} (h : Forward load)
    (fuel : Nat) (acc : List Value) : Forward (arrayLoop halt load fuel acc) := by
  induction fuel generalizing acc with
  | zero =>
    intro s hs
    have h1 := h s hs
    unfold arrayLoop
    split
    · exact ⟨rfl, Nat.le_refl _, hs⟩
    · exact ⟨rfl, Nat.le_refl _, hs⟩
    · split
      · rename_i e t ht; rw [ht] at h1; exact h1
      · rename_i v t ht; rw [ht] at h1; exact h1
  | succ fuel ih =>
    intro s hs
    have h1 := h s hs
    unfold arrayLoop
    split
    · exact ⟨rfl, Nat.le_refl _, hs⟩
    · exact ⟨rfl, Nat.le_refl _, hs⟩
    · split
      · rename_i e t ht; rw [ht] at h1; exact h1
      · rename_i v t ht; rw [ht] at h1
        exact forward_step h1 (ih _ t)

/-- All three loaders go forwards. -/
theorem load_forward (Γ : Classes) (hΓ : ∀ c d, Γ c = some d → ∀ f ∈ d.components, LoadsForward f) (n : Nat) :
    (∀ f, LoadsForward f → ∀ ctx loaded, Forward fun s => fieldFromStream Γ n f s ctx loaded) ∧
    (∀ f, LoadsForward f → ∀ ctx loaded, Forward fun s => fieldDoLoad Γ n f s ctx loaded) ∧
    (∀ d, (∀ f ∈ d.components, LoadsForward f) → ∀ ctx kw, Forward fun s => structFromStream Γ n d s ctx kw) := by
  induction n with
  | zero => exact ⟨fun _ _ _ _ s h => ⟨rfl, Nat.le_refl _, h⟩, fun _ _ _ _ s h => ⟨rfl, Nat.le_refl _, h⟩,
      fun _ _ _ _ s h => ⟨rfl, Nat.le_refl _, h⟩⟩
  | succ n ih =>
    obtain ⟨ih1, ih2, ih3⟩ := ih
    have hstruct : ∀ cls ctx, Forward fun s => loadStruct Γ (fun d s ctx => structFromStream Γ n d s ctx []) cls s ctx := by
      intro cls ctx s hs
      unfold loadStruct
      split
      · exact ⟨rfl, Nat.le_refl _, hs⟩
      · rename_i d hd
        exact ih3 d (hΓ cls d hd) ctx [] s hs
    refine ⟨fun f hf ctx loaded => ?_, fun f hf ctx loaded => ?_, fun d hd ctx kw => ?_⟩
    · exact fromStreamWith_forward (ih2 f hf ctx loaded) ctx loaded
    · cases f with
      | leaf b k => exact leafLoad_forward hf _ ctx loaded
      | array b comp count halt =>
        cases hf with
        | array hc => exact Spec.Forward.map (arrayLoop_forward (ih1 comp hc ctx loaded) n []) _
      | nested b cls => exact hstruct cls ctx
      | union b choices ld dd =>
        cases hf with
        | union hc =>
          intro s hs
          simp only [fieldDoLoad, containerLoad]
          split
          · exact ⟨rfl, Nat.le_refl _, hs⟩
          · rename_i i hi
            split
            · exact ⟨rfl, Nat.le_refl _, hs⟩
            · rename_i g hg
              exact ih2 g (hc g (List.mem_of_getElem? hg)) ctx loaded s hs
            · rename_i cls hg
              exact hstruct cls ctx s hs
    · exact structFromStreamWith_forward (fun f hf loaded => ih1 f (hd f hf) ctx loaded) kw

/-! ### Not looking ahead -/

theorem rest_mid (pre x : Bytes) : (⟨pre ++ x, pre.length⟩ : Stream).rest = x := by simp [Stream.rest]

theorem rest_mid' (pre used post : Bytes) : (⟨pre ++ used ++ post, pre.length⟩ : Stream).rest = used ++ post := by
  rw [List.append_assoc, rest_mid]

theorem sameBehind_mid (pre x y : Bytes) : SameBehind ⟨pre ++ x, pre.length⟩ ⟨pre ++ y, pre.length⟩ :=
  ⟨rfl, by simp⟩

theorem sameBehind_mid' (pre used x y : Bytes) :
    SameBehind ⟨pre ++ used ++ x, pre.length⟩ ⟨pre ++ used ++ y, pre.length⟩ := by
  rw [List.append_assoc, List.append_assoc]; exact sameBehind_mid ..

theorem Spec.Local.weaken {α : Type} {e : Bool} {load : Stream → R α} (h : Local true load) : Local e load :=
  fun pre used post a hl _ post' => h pre used post a hl (Or.inr rfl) post'

theorem Spec.Local.stop {α : Type} {e : Bool} (err : Err) : Local e fun s => ((.error err, s) : R α) := by
  intro pre used post a hl
  simp at hl

theorem Spec.Local.map {α β : Type} {e : Bool} {load : Stream → R α} (h : Local e load) (g : α → β) :
    Local e fun s => R.map (load s) g := by
  intro pre used post b hl hp post'
  cases hx : load ⟨pre ++ used ++ post, pre.length⟩ with
  | mk r t =>
    simp only [R.map, hx] at hl
    cases r with
    | error err => simp [Except.map] at hl
    | ok a =>
      simp only [Except.map, Prod.mk.injEq, Except.ok.injEq] at hl
      obtain ⟨rfl, rfl⟩ := hl
      simp only [R.map, h pre used post a hx hp post', Except.map]

theorem Spec.Local.andThen {α β : Type} {e : Bool} {load : Stream → R α} (h : Local e load) (g : α → Except Err β) :
    Local e fun s => R.andThen (load s) g := by
  intro pre used post b hl hp post'
  cases hx : load ⟨pre ++ used ++ post, pre.length⟩ with
  | mk r t =>
    simp only [R.andThen, hx] at hl
    cases r with
    | error err => simp [Except.bind] at hl
    | ok a =>
      simp only [Except.bind, Prod.mk.injEq] at hl
      obtain ⟨hg, rfl⟩ := hl
      simp only [R.andThen, h pre used post a hx hp post', Except.bind, hg]

/-- Reading a number of bytes that are there. -/
theorem read_local {e : Bool} {n : Int} (hn : 0 ≤ n ∨ e = false) {pre used post x : Bytes}
    (h : Stream.read ⟨pre ++ used ++ post, pre.length⟩ n = (x, ⟨pre ++ used ++ post, pre.length + used.length⟩))
    (hlen : ¬ (x.length : Int) < n) (hp : post ≠ [] ∨ e = true) :
    x = used ∧ ∀ post', Stream.read ⟨pre ++ used ++ post', pre.length⟩ n =
      (used, ⟨pre ++ used ++ post', pre.length + used.length⟩) := by
  by_cases h0 : 0 ≤ n
  · obtain ⟨m, rfl⟩ := Int.eq_ofNat_of_zero_le h0
    rw [Stream.read_nat, rest_mid'] at h
    simp only [Prod.mk.injEq, Stream.mk.injEq, true_and] at h
    obtain ⟨h1, h2⟩ := h
    have h3 : m = used.length := by
      have := congrArg List.length h1
      simp only [List.length_take] at this
      have hlen' : m ≤ x.length := by omega
      omega
    subst h3
    refine ⟨by rw [← h1]; simp, fun post' => ?_⟩
    rw [Stream.read_nat, rest_mid']
    simp
  · have he : e = false := hn.resolve_left h0
    have hpost : post ≠ [] := hp.resolve_right (by simp [he])
    unfold Stream.read at h
    simp only [if_pos (show n < 0 by omega)] at h
    simp only [Prod.mk.injEq, Stream.mk.injEq, true_and] at h
    have : post.length = 0 := by
      have h2 := h.2
      simp only [List.length_drop, List.length_append] at h2
      omega
    exact absurd (List.length_eq_zero_iff.1 this) hpost

theorem readExactSize_local {e : Bool} (name : String) {x : Except Err Int} (hx : ∀ n, x = .ok n → 0 ≤ n ∨ e = false) :
    Local e (readExactSize name x) := by
  intro pre used post a hl hp post'
  cases x with
  | error err => simp [readExactSize] at hl
  | ok n =>
    simp only [readExactSize] at hl ⊢
    split at hl
    · simp at hl
    · rename_i hlen
      simp only [Prod.mk.injEq, Except.ok.injEq] at hl
      obtain ⟨h1, h2⟩ := read_local (hx n rfl) (Prod.ext hl.1 hl.2) (by rw [← hl.1]; exact hlen) hp
      rw [h2 post']
      have : ¬ (used.length : Int) < n := by rw [← h1, ← hl.1]; exact hlen
      simp [this, h1]

theorem readInt_local {e : Bool} {n : Int} (hn : 0 ≤ n ∨ e = false) (signed : Bool) (en : Endian) :
    Local e fun s => readInt s n signed en := by
  intro pre used post a hl hp post'
  simp only [readInt] at hl ⊢
  split at hl
  · simp at hl
  · rename_i hlen
    simp only [Prod.mk.injEq, Except.ok.injEq] at hl
    obtain ⟨h1, h2⟩ := read_local (x := (Stream.read ⟨pre ++ used ++ post, pre.length⟩ n).1) hn (Prod.ext rfl hl.2) hlen hp
    rw [h2 post']
    rw [h1] at hlen
    rw [← hl.1, h1]
    simp [hlen]

theorem decode_local (e : Bool) (enc : VarIntEncoding) : Local e enc.decode := by
  intro pre used post a hl _ post'
  rcases C07_decode_exhaustive ⟨pre ++ used ++ post, pre.length⟩ with ⟨code, post1, hr, hd⟩ | hh
  · rw [C07_decode_delimited enc _ code post1 hd hr] at hl
    simp only [Prod.mk.injEq, Except.ok.injEq, Stream.mk.injEq, true_and] at hl
    obtain ⟨rfl, hlen⟩ := hl
    rw [rest_mid'] at hr
    have hlen : code.length = used.length := by omega
    obtain ⟨rfl, -⟩ := List.append_inj hr hlen.symm
    rw [C07_decode_delimited enc ⟨pre ++ used ++ post', pre.length⟩ used post' hd (rest_mid' ..)]
  · rw [C07_decode_truncated enc _ hh] at hl
    simp at hl

theorem stringzLoop_local {name : String} {k : CharCodec} {max : Option Int} :
    ∀ (fuel nRead : Nat) (buf : Bytes) (acc : List Nat) (pre used post : Bytes) (v : List Nat),
      (used ++ post).length ≤ fuel →
      stringzLoop name k max fuel nRead buf acc ⟨pre ++ used ++ post, pre.length⟩ =
        (.ok v, ⟨pre ++ used ++ post, pre.length + used.length⟩) →
      ∀ (fuel' : Nat) (post' : Bytes), used.length ≤ fuel' →
        stringzLoop name k max fuel' nRead buf acc ⟨pre ++ used ++ post', pre.length⟩ =
          (.ok v, ⟨pre ++ used ++ post', pre.length + used.length⟩) := by
  intro fuel
  induction fuel with
  | zero =>
    intro nRead buf acc pre used post v hf h
    have hr : (⟨pre ++ used ++ post, pre.length⟩ : Stream).rest = [] := by
      rw [rest_mid']; exact List.length_eq_zero_iff.1 (by omega)
    rw [stringzLoop_eof hr] at h
    rcases zEnd_cases name buf with h1 | h1 <;> simp [h1] at h
  | succ fuel ih =>
    intro nRead buf acc pre used post v hf h fuel' post' hf'
    cases hs : zStop max nRead with
    | true => rw [stringzLoop_stop hs] at h; rcases zEnd_cases name buf with h1 | h1 <;> simp [h1] at h
    | false =>
      cases used with
      | nil =>
        exfalso
        cases post with
        | nil =>
          rw [stringzLoop_eof (by simp [Stream.rest])] at h
          rcases zEnd_cases name buf with h1 | h1 <;> simp [h1] at h
        | cons x post =>
          have hr : (⟨pre ++ [] ++ x :: post, pre.length⟩ : Stream).rest = x :: post := rest_mid' ..
          rw [stringzLoop_step hs hr] at h
          cases hfe : k.feed (buf ++ [x]) with
          | error err => simp [hfe] at h
          | ok ob =>
            obtain ⟨out, buf'⟩ := ob
            simp only [hfe] at h
            split at h
            · simp at h
            · obtain ⟨used1, rest1, -, h2, -⟩ := stringzLoop_bound (name := name) (k := k) (max := max) fuel (nRead + 1) buf'
                (acc ++ out) ⟨pre ++ [] ++ x :: post, pre.length + 1⟩ (by rw [Stream.rest_succ hr]; simp at hf; omega)
              rw [h] at h2
              simp only [Stream.mk.injEq, true_and, List.length_nil] at h2
              omega
      | cons x used =>
        have hr : (⟨pre ++ x :: used ++ post, pre.length⟩ : Stream).rest = x :: (used ++ post) := rest_mid' ..
        have hr' : (⟨pre ++ x :: used ++ post', pre.length⟩ : Stream).rest = x :: (used ++ post') := rest_mid' ..
        rw [stringzLoop_step hs hr] at h
        rw [stringzLoop_step hs hr']
        cases hfe : k.feed (buf ++ [x]) with
        | error err => simp [hfe] at h
        | ok ob =>
          obtain ⟨out, buf'⟩ := ob
          simp only [hfe] at h ⊢
          by_cases ho : out = [0]
          · simp only [ho, if_true] at h ⊢
            simp only [Prod.mk.injEq, Stream.mk.injEq, true_and, Except.ok.injEq] at h
            obtain ⟨rfl, h⟩ := h
            simp at h ⊢
            omega
          · simp only [ho, if_false] at h ⊢
            cases fuel' with
            | zero => simp at hf'
            | succ fuel' =>
              simp only
              have e1 : (⟨pre ++ x :: used ++ post, pre.length + 1⟩ : Stream) =
                  ⟨(pre ++ [x]) ++ used ++ post, (pre ++ [x]).length⟩ := by simp
              have e2 : (⟨pre ++ x :: used ++ post', pre.length + 1⟩ : Stream) =
                  ⟨(pre ++ [x]) ++ used ++ post', (pre ++ [x]).length⟩ := by simp
              have e3 : (⟨pre ++ x :: used ++ post, pre.length + (x :: used).length⟩ : Stream) =
                  ⟨(pre ++ [x]) ++ used ++ post, (pre ++ [x]).length + used.length⟩ := by simp; omega
              have e4 : (⟨pre ++ x :: used ++ post', pre.length + (x :: used).length⟩ : Stream) =
                  ⟨(pre ++ [x]) ++ used ++ post', (pre ++ [x]).length + used.length⟩ := by simp; omega
              rw [e1, e3] at h
              rw [e2, e4]
              exact ih (nRead + 1) buf' (acc ++ out) (pre ++ [x]) used post v (by simp at hf ⊢; omega) h fuel' post'
                (by simp at hf'; omega)

theorem except_map_ok {α β : Type} {x : Except Err α} {g : α → β} {y : β} (h : x.map g = .ok y) : ∃ a, x = .ok a ∧ g a = y := by
  cases x with
  | error e => simp [Except.map] at h
  | ok a => exact ⟨a, rfl, by simpa [Except.map] using h⟩

theorem leafSizeForValue_nonneg {b : FieldBase} {k : Leaf} {w : Value} {m : Int} (hk : ∀ ops, k ≠ .custom ops)
    (hn : b.size = .none) (hm : leafSizeForValue b k w = .ok (some m)) : 0 ≤ m := by
  cases k <;> first | exact absurd rfl (hk _) | cases w <;> simp only [leafSizeForValue, hn] at hm <;> first
    | (simp at hm; done)
    | (simp at hm; omega)
    | (obtain ⟨bs, -, hbs⟩ := except_map_ok hm; simp at hbs; omega)

theorem leafExpectedSize_nonneg {b : FieldBase} {k : Leaf} {loaded : Dict} {n : Int} (hk : ∀ ops, k ≠ .custom ops)
    (h1 : ∀ n, b.size = .fixed n → 0 ≤ n) (h2 : ∀ r i, b.size = .ref r → Dict.get? loaded r = some (.int i) → 0 ≤ i)
    (h : leafExpectedSize b k loaded = .ok n) : 0 ≤ n := by
  unfold leafExpectedSize FieldBase.expectedSizeWith at h
  split at h
  · rename_i m hm; simp only [Except.ok.injEq] at h; subst h; exact h1 _ hm
  · rename_i r hr
    unfold sizeFromRef at h
    split at h
    · rename_i i hi; simp only [Except.ok.injEq] at h; subst h; exact h2 _ _ hr hi
    · simp at h
    · simp at h
  · rename_i hn
    split at h
    · simp at h
    · cases hx : b.nullReprWith (fun v => leafDump b k (.error (.buggyField b.name)) v .none loaded)
          (.error (.buggyField b.name)) with
      | error err => simp [hx, Except.map] at h
      | ok bs => simp [hx, Except.map] at h; omega
    · split at h
      · simp at h
      · rename_i m hm
        simp only [Except.ok.injEq] at h
        subst h
        exact leafSizeForValue_nonneg hk hn hm
      · simp at h

/-- The field reads as many bytes as its size says. -/
def TakesSize : Leaf → Prop
  | .float .. | .integer .. | .timestamp .. | .bytes | .string .. => True
  | _ => False

theorem leafLoad_local_of {e : Bool} {b : FieldBase} {k : Leaf}
    (hc : ∀ ops, k = .custom ops → ∀ ctx loaded, Local true fun s => ops.load s ctx loaded)
    {loaded : Dict} (hsz : TakesSize k → ∀ n, leafExpectedSize b k loaded = .ok n → 0 ≤ n ∨ e = false) (ctx : Value) :
    Local e fun s => leafLoad b k (leafExpectedSize b k loaded) s ctx loaded := by
  cases k with
  | float fmt en => exact Spec.Local.andThen (readExactSize_local b.name (hsz trivial)) _
  | integer sg en =>
    cases hs : b.size with
    | fixed n =>
      simp only [leafLoad, hs]
      exact Spec.Local.map (readInt_local (hsz trivial n (by simp [leafExpectedSize, FieldBase.expectedSizeWith, hs])) sg en) _
    | none => simp only [leafLoad, hs]; exact Spec.Local.stop _
    | ref r => simp only [leafLoad, hs]; exact Spec.Local.stop _
  | varint enc m => exact Spec.Local.map (decode_local e enc) _
  | timestamp res tz sg en =>
    cases hx : leafExpectedSize b (.timestamp res tz sg en) loaded with
    | error err => exact Spec.Local.stop _
    | ok n => exact Spec.Local.andThen (readInt_local (hsz trivial n hx) sg en) _
  | bytes => exact Spec.Local.map (readExactSize_local b.name (hsz trivial)) _
  | string c p => exact Spec.Local.andThen (readExactSize_local b.name (hsz trivial)) _
  | stringz c p =>
    have hz : ∀ max, Local e fun s => stringzLoop b.name c max s.rest.length 0 [] [] s := by
      intro max pre used post v hl _ post'
      simp only at hl ⊢
      exact stringzLoop_local _ 0 [] [] pre used post v (by rw [rest_mid']; exact Nat.le_refl _) hl _ post'
        (by rw [rest_mid']; simp)
    simp only [leafLoad]
    split
    · exact Spec.Local.map (hz _) _
    · exact Spec.Local.map (hz _) _
    · exact Spec.Local.stop _
  | uuid fmt =>
    intro pre used post a hl hp post'
    simp only [leafLoad] at hl ⊢
    split at hl
    · simp at hl
    · rename_i hlen
      simp only [Prod.mk.injEq] at hl
      obtain ⟨h1, h2⟩ := read_local (x := (Stream.read ⟨pre ++ used ++ post, pre.length⟩ fmt.size).1)
        (Or.inl (by cases fmt <;> decide)) (Prod.ext rfl hl.2) hlen hp
      rw [h2 post']
      rw [h1] at hlen hl
      simp [hlen, hl.1]
  | custom ops => exact (hc ops rfl ctx loaded).weaken

theorem leafLoad_local {e : Bool} {b : FieldBase} {k : Leaf}
    (hc : ∀ ops, k = .custom ops → ∀ ctx loaded, Local true fun s => ops.load s ctx loaded)
    {loaded : Dict} (h1 : e = true → ∀ n, b.size = .fixed n → 0 ≤ n)
    (h2 : e = true → ∀ r i, b.size = .ref r → Dict.get? loaded r = some (.int i) → 0 ≤ i) (ctx : Value) :
    Local e fun s => leafLoad b k (leafExpectedSize b k loaded) s ctx loaded := by
  refine leafLoad_local_of hc (fun hk n hn => ?_) ctx
  cases e with
  | false => exact Or.inr rfl
  | true => exact Or.inl (leafExpectedSize_nonneg (by rintro ops rfl; exact hk) (h1 rfl) (h2 rfl) hn)

/-- Where a first step of a load that uses `used` ends. -/
theorem split_used {α : Type} {load : Stream → R α} (hF : Forward load) {pre used post : Bytes} {a : α} {t : Stream}
    (h : load ⟨pre ++ used ++ post, pre.length⟩ = (.ok a, t)) (ht : t.pos ≤ pre.length + used.length) :
    ∃ u1 u2, used = u1 ++ u2 ∧ t = ⟨pre ++ used ++ post, pre.length + u1.length⟩ := by
  have := hF ⟨pre ++ used ++ post, pre.length⟩ (by simp)
  rw [h] at this
  obtain ⟨h1, h2, h3⟩ := this
  obtain ⟨d, p⟩ := t
  simp only at h1 h2 h3 ht
  refine ⟨used.take (p - pre.length), used.drop (p - pre.length), by simp, ?_⟩
  subst h1
  simp only [List.length_take, Stream.mk.injEq, true_and]
  omega

/-- A first step that succeeds, taking `u1`, does the same whatever comes later. -/
theorem Spec.Local.first {α : Type} {e : Bool} {load : Stream → R α} (hL : Local e load) {pre u1 u2 post : Bytes} {a : α}
    (h : load ⟨pre ++ (u1 ++ u2) ++ post, pre.length⟩ = (.ok a, ⟨pre ++ (u1 ++ u2) ++ post, pre.length + u1.length⟩))
    (hp : post ≠ [] ∨ e = true) (post' : Bytes) :
    load ⟨pre ++ (u1 ++ u2) ++ post', pre.length⟩ = (.ok a, ⟨pre ++ (u1 ++ u2) ++ post', pre.length + u1.length⟩) := by
  have e1 : ∀ p, pre ++ (u1 ++ u2) ++ p = pre ++ u1 ++ (u2 ++ p) := by simp
  rw [e1] at h ⊢
  exact hL pre u1 (u2 ++ post) a h (hp.imp_left (by simp +contextual)) (u2 ++ post')

theorem loadAndFinish_local {e : Bool} {b : FieldBase} {eq : Value → Value → Except Err Bool} {doLoad : Stream → R Value}
    (h : Local e doLoad) : Local e (loadAndFinish b eq doLoad) := by
  intro pre used post v hl hp post'
  unfold loadAndFinish at hl ⊢
  split at hl
  · simp at hl
  · rename_i w t ht
    simp only [Prod.mk.injEq] at hl
    obtain ⟨hf, rfl⟩ := hl
    rw [h pre used post w ht hp post']
    simp [hf]

theorem fromStreamWith_local {e : Bool} {b : FieldBase} {eq : Value → Value → Except Err Bool} {nullRepr : Except Err Bytes}
    {doLoad : Stream → R Value} (hL : Local e doLoad) {ctx : Value} {loaded : Dict}
    (hpr : NoLookahead fun s => b.present loaded.view ctx (some s))
    (hnull : b.nullValue = .undefined ∨ ∀ repr pre used post v, nullRepr = .ok repr →
      doLoad ⟨pre ++ used ++ post, pre.length⟩ = (.ok v, ⟨pre ++ used ++ post, pre.length + used.length⟩) → used <+: repr → used = repr) :
    Local e fun s => fromStreamWith b eq nullRepr doLoad s ctx loaded := by
  intro pre used post v hl hp post'
  have hfin := loadAndFinish_local (b := b) (eq := eq) hL pre used post v
  simp only [fromStreamWith] at hl ⊢
  have hpr' := hpr _ _ (sameBehind_mid' pre used post' post)
  simp only at hpr'
  rw [hpr']
  cases hc : b.present loaded.view ctx (some ⟨pre ++ used ++ post, pre.length⟩) with
  | error err => simp only [hc] at hl; simp at hl
  | ok pr =>
    cases pr with
    | false =>
      simp only [hc, Prod.mk.injEq, Except.ok.injEq, Stream.mk.injEq, true_and] at hl ⊢
      exact ⟨hl.1, hl.2⟩
    | true =>
      simp only [hc] at hl ⊢
      by_cases ha : b.allowNull = true
      · simp only [ha, if_true] at hl ⊢
        have hnull := hnull.resolve_left (by simpa [FieldBase.allowNull] using ha)
        cases hr : nullRepr with
        | error err =>
          simp only [hr] at hl ⊢
          split at hl
          · split at hl
            · simp at hl
            · rename_i h1 h2
              simp only [h1, if_true, h2, if_false]
              exact hfin hl hp post'
          · simp at hl
        | ok repr =>
          simp only [hr, peekBytes_eq, rest_mid'] at hl ⊢
          by_cases hpk : (used ++ post).take repr.length = repr
          · simp only [hpk, if_true] at hl
            split at hl
            · simp at hl
            · rename_i hv
              simp only [Prod.mk.injEq, Except.ok.injEq, Stream.seek, Stream.mk.injEq, true_and] at hl
              obtain ⟨rfl, hl⟩ := hl
              have hlen : repr.length = used.length := by omega
              have hu : repr = used := by rw [hlen] at hpk; simpa using hpk.symm
              subst hu
              simp only [List.take_left, if_true, Stream.seek]
          · simp only [hpk, if_false] at hl
            have hne : (used ++ post').take repr.length ≠ repr := by
              intro hpk'
              rcases Nat.lt_or_ge used.length repr.length with hlt | hge
              · have hpre : used <+: repr := by
                  rw [← hpk', List.take_append, List.take_of_length_le (by omega)]
                  exact List.prefix_append _ _
                have hld : ∃ w, doLoad ⟨pre ++ used ++ post, pre.length⟩ = (.ok w, ⟨pre ++ used ++ post, pre.length + used.length⟩) := by
                  unfold loadAndFinish at hl
                  split at hl
                  · simp at hl
                  · rename_i w t ht
                    simp only [Prod.mk.injEq] at hl
                    obtain ⟨-, rfl⟩ := hl
                    exact ⟨w, ht⟩
                obtain ⟨w, hw⟩ := hld
                rw [hnull repr _ _ _ _ hr hw hpre] at hlt
                omega
              · rw [List.take_append_of_le_length hge] at hpk hpk'
                exact hpk hpk'
            simp only [hne, if_false]
            exact hfin hl hp post'
      · simp only [ha] at hl ⊢
        exact hfin hl hp post'

theorem loadFields_local {e : Bool} {load : Field → Stream → Dict → R Value} {I : Dict → Prop} {fs : List Field}
    (hI : ∀ f ∈ fs, ∀ loaded s v t, I loaded → load f s loaded = (.ok v, t) → I (loaded.setDefault f.name v))
    (hF : ∀ f ∈ fs, ∀ loaded, Forward fun s => load f s loaded)
    (hL : ∀ f ∈ fs, ∀ loaded, I loaded → Local e fun s => load f s loaded) (acc : Dict) (ha : I acc) :
    Local e (loadFields load fs acc) := by
  induction fs generalizing acc with
  | nil =>
    intro pre used post r hl hp post'
    simp only [loadFields, Prod.mk.injEq, Except.ok.injEq, Stream.mk.injEq, true_and] at hl ⊢
    exact ⟨hl.1, hl.2⟩
  | cons f fs ih =>
    intro pre used post r hl hp post'
    simp only [loadFields] at hl
    split at hl
    · simp at hl
    · rename_i v t ht
      have hfs : Forward (loadFields load fs (acc.setDefault f.name v)) :=
        loadFields_forward (fun g hg => hF g (List.mem_cons_of_mem _ hg)) _
      have hft := hF f List.mem_cons_self acc ⟨pre ++ used ++ post, pre.length⟩ (by simp)
      simp only [ht] at hft
      have hpos := hfs t (by rw [hft.1]; exact hft.2.2)
      rw [hl] at hpos
      obtain ⟨u1, u2, rfl, rfl⟩ := split_used (hF f List.mem_cons_self acc) ht (by simpa using hpos.2.1)
      have h1 := Spec.Local.first (hL f List.mem_cons_self acc ha) ht hp post'
      simp only [loadFields, h1]
      have e1 : ∀ p, (⟨pre ++ (u1 ++ u2) ++ p, pre.length + u1.length⟩ : Stream) =
          ⟨(pre ++ u1) ++ u2 ++ p, (pre ++ u1).length⟩ := by simp
      have e2 : ∀ p, (⟨pre ++ (u1 ++ u2) ++ p, pre.length + (u1 ++ u2).length⟩ : Stream) =
          ⟨(pre ++ u1) ++ u2 ++ p, (pre ++ u1).length + u2.length⟩ := by simp [Nat.add_assoc]
      rw [e1, e2] at hl
      rw [e1, e2]
      exact ih (fun g hg => hI g (List.mem_cons_of_mem _ hg)) (fun g hg => hF g (List.mem_cons_of_mem _ hg))
        (fun g hg => hL g (List.mem_cons_of_mem _ hg)) _ (hI f List.mem_cons_self acc _ v _ ha ht) _ u2 post r hl hp post'

theorem structFromStreamWith_local {e : Bool} {load : Field → Stream → Dict → R Value} {d : StructDesc} {kw : Dict}
    (h : Local e (loadFields load d.components kw)) : Local e fun s => structFromStreamWith load d s kw := by
  intro pre used post v hl hp post'
  simp only [structFromStreamWith] at hl ⊢
  split at hl
  · simp at hl
  · rename_i r t ht
    split at hl
    · simp at hl
    · rename_i vals hv
      split at hl
      · simp at hl
      · rename_i hv2
        simp only [Prod.mk.injEq] at hl
        obtain ⟨h1, rfl⟩ := hl
        rw [h pre used post r ht hp post']
        simp [hv, hv2, h1]

theorem arrayLoop_local {e : Bool} {halt : Stream → List Value → Except Err (Bool × List Value)} {load : Stream → R Value}
    (hh : ∀ values, NoLookahead fun s => halt s values) (hF : Forward load) (hL : Local e load) (fuel : Nat) (acc : List Value) :
    Local e (arrayLoop halt load fuel acc) := by
  induction fuel generalizing acc with
  | zero =>
    intro pre used post l hl hp post'
    have hh' := hh acc _ _ (sameBehind_mid' pre used post' post)
    simp only at hh'
    unfold arrayLoop at hl ⊢
    rw [hh']
    split at hl
    · simp at hl
    · rename_i hx
      simp only [Prod.mk.injEq, Except.ok.injEq, Stream.mk.injEq, true_and] at hl
      simp only [hl.1, ← hl.2]
    · split at hl <;> simp at hl
  | succ fuel ih =>
    intro pre used post l hl hp post'
    have hh' := hh acc _ _ (sameBehind_mid' pre used post' post)
    simp only at hh'
    unfold arrayLoop at hl ⊢
    rw [hh']
    split at hl
    · simp at hl
    · rename_i hx
      simp only [Prod.mk.injEq, Except.ok.injEq, Stream.mk.injEq, true_and] at hl
      simp only [hl.1, ← hl.2]
    · rename_i acc' hx
      split at hl
      · simp at hl
      · rename_i v t ht
        simp only at hl
        have hfs := arrayLoop_forward (halt := halt) hF fuel (if v = .notPresent then acc' else acc' ++ [v])
        have hft := hF ⟨pre ++ used ++ post, pre.length⟩ (by simp)
        simp only [ht] at hft
        have hpos := hfs t (by rw [hft.1]; exact hft.2.2)
        rw [hl] at hpos
        obtain ⟨u1, u2, rfl, rfl⟩ := split_used hF ht (by simpa using hpos.2.1)
        have h1 := Spec.Local.first hL ht hp post'
        simp only [h1]
        have e1 : ∀ p, (⟨pre ++ (u1 ++ u2) ++ p, pre.length + u1.length⟩ : Stream) =
            ⟨(pre ++ u1) ++ u2 ++ p, (pre ++ u1).length⟩ := by simp
        have e2 : ∀ p, (⟨pre ++ (u1 ++ u2) ++ p, pre.length + (u1 ++ u2).length⟩ : Stream) =
            ⟨(pre ++ u1) ++ u2 ++ p, (pre ++ u1).length + u2.length⟩ := by simp [Nat.add_assoc]
        rw [e1, e2] at hl
        rw [e1, e2]
        exact ih _ _ u2 post l hl hp post'

/-- An array without a count or a halt check ends only at the end of the stream. -/
theorem arrayLoop_unsized {name : String} {load : Stream → R Value} {ctx : Value} {loaded : Dict} (fuel : Nat) (acc : List Value)
    (s t : Stream) (l : List Value) (h : arrayLoop (haltCheck name .none none ctx loaded) load fuel acc s = (.ok l, t)) :
    t.rest = [] := by
  induction fuel generalizing acc s with
  | zero =>
    unfold arrayLoop at h
    split at h
    · simp at h
    · rename_i hx
      simp only [Prod.mk.injEq, Except.ok.injEq] at h
      obtain ⟨-, rfl⟩ := h
      simp only [haltCheck, shouldHalt, Except.map, Except.ok.injEq, Prod.mk.injEq, decide_eq_true_eq] at hx
      replace hx := hx.1
      cases hr : s.rest with
      | nil => rfl
      | cons x r => rw [Stream.read_one hr] at hx; simp at hx
    · split at h <;> simp at h
  | succ fuel ih =>
    unfold arrayLoop at h
    split at h
    · simp at h
    · rename_i hx
      simp only [Prod.mk.injEq, Except.ok.injEq] at h
      obtain ⟨-, rfl⟩ := h
      simp only [haltCheck, shouldHalt, Except.map, Except.ok.injEq, Prod.mk.injEq, decide_eq_true_eq] at hx
      replace hx := hx.1
      cases hr : s.rest with
      | nil => rfl
      | cons x r => rw [Stream.read_one hr] at hx; simp at hx
    · split at h
      · simp at h
      · exact ih _ _ h

theorem haltCheck_noLookahead {name : String} {count : Count} (hc : count ≠ .none) (values : List Value) (ctx : Value) (loaded : Dict) :
    NoLookahead fun s => haltCheck name count none ctx loaded s values := by
  intro s t _
  cases count <;> first | exact absurd rfl hc | rfl

/-- All three loaders are local. -/
theorem load_local (e : Bool) (Γ : Classes) (hΓF : ∀ c d, Γ c = some d → ∀ f ∈ d.components, LoadsForward f)
    (hΓL : ∀ c d, Γ c = some d → ∀ f ∈ d.components, LooksBehind Γ f)
    (hΓS : e = true → ∀ c d, Γ c = some d → (∀ f ∈ d.components, SelfLimited f) ∧ SizeFieldsNonNeg Γ d) (n : Nat) :
    (∀ f, LoadsForward f → LooksBehind Γ f → (e = true → SelfLimited f) → ∀ ctx loaded,
      (e = true → SizesNonNeg f loaded) → Local e fun s => fieldFromStream Γ n f s ctx loaded) ∧
    (∀ f, LoadsForward f → LooksBehind Γ f → (e = true → SelfLimited f) → ∀ ctx loaded,
      (e = true → SizesNonNeg f loaded) → Local e fun s => fieldDoLoad Γ n f s ctx loaded) ∧
    (∀ d, (∀ f ∈ d.components, LoadsForward f) → (∀ f ∈ d.components, LooksBehind Γ f) →
      (e = true → (∀ f ∈ d.components, SelfLimited f) ∧ SizeFieldsNonNeg Γ d) → ∀ ctx kw,
      (e = true → ∀ f ∈ d.components, SizesNonNeg f kw) → Local e fun s => structFromStream Γ n d s ctx kw) := by
  induction n with
  | zero => exact ⟨fun _ _ _ _ _ _ _ => Spec.Local.stop _, fun _ _ _ _ _ _ _ => Spec.Local.stop _,
      fun _ _ _ _ _ _ _ => Spec.Local.stop _⟩
  | succ n ih =>
    obtain ⟨ih1, ih2, ih3⟩ := ih
    obtain ⟨if1, if2, if3⟩ := load_forward Γ hΓF n
    have hstruct : ∀ cls ctx, Local e fun s => loadStruct Γ (fun d s ctx => structFromStream Γ n d s ctx []) cls s ctx := by
      intro cls ctx
      unfold loadStruct
      cases hd : Γ cls with
      | none => exact Spec.Local.stop _
      | some d =>
        exact Spec.Local.map (ih3 d (hΓF cls d hd) (hΓL cls d hd) (fun he => hΓS he cls d hd) ctx []
          (fun _ _ _ _ _ _ h => by simp [Dict.get?] at h)) _
    refine ⟨fun f hf hb hl ctx loaded hz => ?_, fun f hf hb hl ctx loaded hz => ?_, fun d hd hb hl ctx kw hz => ?_⟩
    · have hu : Unpeeking Γ f := by cases hb <;> assumption
      exact fromStreamWith_local (ih2 f hf hb hl ctx loaded hz) (hu.1 _ _)
        (hu.2.imp id fun h repr pre used post v => h n loaded repr pre used post ctx v)
    · cases f with
      | leaf b k =>
        cases hb with
        | leaf _ hc =>
        refine leafLoad_local hc (fun he => ?_) (fun he r i hr hg => hz he r i (.leaf hr) hg) ctx
        cases hl he with
        | leaf h => exact h
      | array b comp count halt =>
        cases hb with
        | array _ hcb hh =>
        cases hf with
        | array hcf =>
        have hcomp : Local e fun s => fieldFromStream Γ n comp s ctx loaded :=
          ih1 comp hcf hcb (fun he => by cases hl he with | array _ h => exact h) ctx loaded
            (fun he r i hr hg => hz he r i (.array hr) hg)
        refine Spec.Local.map ?_ _
        cases halt with
        | some h =>
          exact arrayLoop_local (fun values => hh h rfl values ctx loaded) (if1 comp hcf ctx loaded) hcomp n []
        | none =>
          by_cases hc : count = .none
          · subst hc
            intro pre used post l hx hp
            have := arrayLoop_unsized (name := b.name) (loaded := loaded) n [] _ _ l hx
            rcases hp with hp | he
            · simp only [Stream.rest] at this
              rw [List.append_assoc, show pre.length + used.length = (pre ++ used).length by simp, ← List.append_assoc,
                List.drop_left] at this
              exact absurd this hp
            · cases hl he with
              | array h _ => simp at h
          · exact arrayLoop_local (fun values => haltCheck_noLookahead hc values ctx loaded) (if1 comp hcf ctx loaded) hcomp n []
      | nested b cls => exact hstruct cls ctx
      | union b choices ld dd =>
        cases hb with
        | union _ hld hcb =>
        cases hf with
        | union hcf =>
        intro pre used post v hx hp post'
        simp only [fieldDoLoad, containerLoad] at hx ⊢
        have hd' := hld ctx loaded _ _ (sameBehind_mid' pre used post' post)
        simp only at hd'
        rw [hd']
        split at hx
        · simp at hx
        · rename_i i hi
          split at hx
          · simp at hx
          · rename_i g hg
            have hm := List.mem_of_getElem? hg
            exact ih2 g (hcf g hm) (hcb g hm) (fun he => by cases hl he with | union h => exact h g hm) ctx loaded
              (fun he r i hr hgt => hz he r i (.union hm hr) hgt) pre used post v hx hp post'
          · rename_i cls hg
            exact hstruct cls ctx pre used post v hx hp post'
    · refine structFromStreamWith_local (loadFields_local (I := fun loaded => e = true → ∀ f ∈ d.components, SizesNonNeg f loaded)
        ?_ (fun f hf loaded => if1 f (hd f hf) ctx loaded)
        (fun f hf loaded hi => ih1 f (hd f hf) (hb f hf) (fun he => (hl he).1 f hf) ctx loaded (fun he => hi he f hf)) kw hz)
      intro g hg loaded s v t hi hload he f hf r i hr hget
      rw [Dict.get?_setDefault] at hget
      split at hget
      · rename_i hk
        simp only [Option.some.injEq] at hget
        subst hget
        exact (hl he).2 f hf r hr g hg hk.1 n s ctx loaded i t hload
      · exact hi he f hf r i hr hget

/-! ### Built-in fields that meet the conditions -/

theorem intOfBytes_unsigned_nonneg (bs : Bytes) (e : Endian) : 0 ≤ intOfBytes bs e false := by
  unfold intOfBytes
  simp

/-- What is loaded comes out of `_do_load`, or is `None` or the value for absent fields. -/
theorem fromStreamWith_value {b : FieldBase} {eq : Value → Value → Except Err Bool} {nullRepr : Except Err Bytes}
    {doLoad : Stream → R Value} {s t : Stream} {ctx v : Value} {loaded : Dict}
    (h : fromStreamWith b eq nullRepr doLoad s ctx loaded = (.ok v, t)) :
    v = .none ∨ v = b.notPresentValue ∨ doLoad s = (.ok v, t) := by
  have hfin : loadAndFinish b eq doLoad s = (.ok v, t) → v = .none ∨ doLoad s = (.ok v, t) := by
    intro h
    unfold loadAndFinish at h
    split at h
    · simp at h
    · rename_i w u hw
      simp only [Prod.mk.injEq] at h
      obtain ⟨h1, rfl⟩ := h
      unfold finishLoad at h1
      split at h1
      · simp at h1
      · rename_i isNull _
        simp only at h1
        split at h1
        · simp at h1
        · simp at h1
        · split at h1
          · simp at h1
          · cases isNull with
            | true => simp at h1; exact Or.inl h1.symm
            | false => simp at h1; subst h1; exact Or.inr hw
  have hfin' : loadAndFinish b eq doLoad s = (.ok v, t) → v = .none ∨ v = b.notPresentValue ∨ doLoad s = (.ok v, t) :=
    fun x => (hfin x).imp_right Or.inr
  unfold fromStreamWith at h
  split at h
  · simp at h
  · simp at h; exact Or.inr (Or.inl h.1.symm)
  · split at h
    · split at h
      · split at h
        · split at h
          · simp at h
          · exact hfin' h
        · simp at h
      · rw [peekBytes_eq] at h
        simp only at h
        split at h
        · split at h
          · simp at h
          · simp at h; exact Or.inl h.1.symm
        · exact hfin' h
    · exact hfin' h

/-- An unsigned integer field never loads a negative number. -/
theorem unsigned_loads_nonneg {Γ : Classes} {n : Nat} {b : FieldBase} {en : Endian} {s t : Stream} {ctx : Value} {loaded : Dict}
    {i : Int} (hnp : ∀ i, b.notPresentValue ≠ .int i)
    (h : fieldFromStream Γ n (.leaf b (.integer false en)) s ctx loaded = (.ok (.int i), t)) : 0 ≤ i := by
  cases n with
  | zero => simp [fieldFromStream] at h
  | succ n =>
    simp only [fieldFromStream] at h
    rcases fromStreamWith_value h with h1 | h1 | h1
    · simp at h1
    · exact absurd h1.symm (hnp i)
    · cases n with
      | zero => simp [fieldDoLoad] at h1
      | succ n =>
        simp only [fieldDoLoad, leafLoad] at h1
        split at h1
        · rename_i k hk
          simp only [R.map, readInt] at h1
          split at h1
          · simp [Except.map] at h1
          · simp only [Except.map, Prod.mk.injEq, Except.ok.injEq, Value.int.injEq] at h1
            rw [← h1.1]
            exact intOfBytes_unsigned_nonneg _ _
        · simp at h1

theorem read_exact_pos {s : Stream} {n : Int} (hn : 0 ≤ n) (h : ¬ ((s.read n).1.length : Int) < n) :
    (s.read n).2.pos = s.pos + n.toNat := by
  obtain ⟨m, rfl⟩ := Int.eq_ofNat_of_zero_le hn
  rw [Stream.read_nat] at h ⊢
  simp only [List.length_take] at h ⊢
  simp
  omega

/-- A field of fixed size moves by that size if it loads. -/
theorem leafLoad_moves {b : FieldBase} {k : Leaf} {n : Int} (hk : ReadsExactly k) (hs : b.size = .fixed n) (hn : 0 ≤ n)
    (hu : ∀ fmt, k = .uuid fmt → (fmt.size : Int) = n) {s t : Stream} {ctx v : Value} {loaded : Dict}
    (h : leafLoad b k (leafExpectedSize b k loaded) s ctx loaded = (.ok v, t)) : t.pos = s.pos + n.toNat := by
  have he : leafExpectedSize b k loaded = .ok n := by simp [leafExpectedSize, FieldBase.expectedSizeWith, hs]
  rw [he] at h
  have hre : ∀ {α : Type} (g : Bytes → Except Err α) {x : α}, R.andThen (readExactSize b.name (.ok n) s) g = (.ok x, t) →
      t.pos = s.pos + n.toNat := by
    intro α g x h
    simp only [readExactSize] at h
    split at h
    · simp [R.andThen, Except.bind] at h
    · rename_i hlen
      simp only [R.andThen, Except.bind, Prod.mk.injEq] at h
      rw [← h.2]
      exact read_exact_pos hn hlen
  have hri : ∀ sg en {α : Type} (g : Int → Except Err α) {x : α}, R.andThen (readInt s n sg en) g = (.ok x, t) →
      t.pos = s.pos + n.toNat := by
    intro sg en α g x h
    simp only [readInt] at h
    split at h
    · simp [R.andThen, Except.bind] at h
    · rename_i hlen
      simp only [R.andThen, Except.bind, Prod.mk.injEq] at h
      rw [← h.2]
      exact read_exact_pos hn hlen
  cases k with
  | float fmt en => exact hre _ h
  | integer sg en =>
    simp only [leafLoad, hs] at h
    exact hri sg en (fun x => .ok (Value.int x)) h
  | varint enc m => exact absurd hk (by simp [ReadsExactly])
  | timestamp res tz sg en => exact hri sg en _ h
  | bytes => exact hre (fun x => .ok (Value.bytes x)) h
  | string c p => exact hre _ h
  | stringz c p => exact absurd hk (by simp [ReadsExactly])
  | uuid fmt =>
    have hf := hu fmt rfl
    simp only [leafLoad] at h
    split at h
    · simp at h
    · rename_i hlen
      simp only [Prod.mk.injEq] at h
      rw [← h.2, hf]
      rw [hf] at hlen
      exact read_exact_pos hn hlen
  | custom ops => exact absurd hk (by simp [ReadsExactly])

end Verif
