import Verif.Model.FastCgi
import Verif.Spec.FastCgi
import Verif.Spec.Sample
import Verif.Lemmas.Str
/-
C50, C51, C56: the FastCGI client.
-/
set_option autoImplicit false
namespace Nts
open Spec.FastCgi Fcgi

/-! ### bytes -/

theorem byte_toNat (n : Nat) : (UInt8.ofNat n).toNat = n % 256 := by simp

theorem and255 (n : Nat) : n &&& 255 = n % 256 := Nat.and_two_pow_sub_one_eq_mod n 8

theorem or128 (x : UInt8) (h : x.toNat < 128) : (x ||| 0x80).toNat = x.toNat + 128 := by
  have key : ∀ n : Fin 128, n.val ||| 128 = n.val + 128 := by decide
  rw [UInt8.toNat_or]
  exact key ⟨x.toNat, h⟩

/-! ### writing -/

theorem writeAll_ok {fail : Nat → Option Str} {x : Bytes} {w w' : Wire} (h : writeAll fail x w = .ok w') :
    w'.sent = w.sent ++ x := by
  unfold writeAll at h
  split at h
  · simp at h
  · simp only [Except.ok.injEq] at h; rw [← h]

/-- A record that is written is framed correctly and keeps the stream aligned. -/
theorem writeRecord_framed {fail : Nat → Option Str} {t : UInt8} {id : Nat} {c : Bytes} {w w' : Wire} (hid : id < 65536)
    (h : writeRecord fail t id c w = .ok w') :
    ∃ b, w'.sent = w.sent ++ b ∧ Framed ⟨t, id, c⟩ b ∧ 8 ∣ b.length := by
  unfold writeRecord at h
  split at h
  · simp at h
  next hlen =>
  have hlen : c.length ≤ 65535 := by omega
  simp only [bind, Except.bind] at h
  cases h1 : writeAll fail (header t id c.length ((8 - c.length % 8) % 8)) w with
  | error e => rw [h1] at h; simp at h
  | ok w1 =>
    rw [h1] at h
    simp only at h
    have s1 := writeAll_ok h1
    cases h2 : (if (!List.isEmpty c) = true then writeAll fail c w1 else Except.ok w1) with
    | error e => rw [h2] at h; simp at h
    | ok w2 =>
      rw [h2] at h
      simp only at h
      have s2 : w2.sent = w1.sent ++ c := by
        split at h2
        · exact writeAll_ok h2
        · next hc =>
          simp only [Except.ok.injEq] at h2
          rw [← h2]
          cases c with
          | nil => simp
          | cons _ _ => simp at hc
      have s3 : w'.sent = w2.sent ++ List.replicate ((8 - c.length % 8) % 8) 0 := by
        split at h
        · exact writeAll_ok h
        · next hp =>
          simp only [Except.ok.injEq] at h
          rw [← h]
          have : (8 - c.length % 8) % 8 = 0 := by omega
          rw [this]; simp
      refine ⟨header t id c.length ((8 - c.length % 8) % 8) ++ c ++ List.replicate ((8 - c.length % 8) % 8) 0, ?_, ?_, ?_⟩
      · rw [s3, s2, s1]; simp
      · refine ⟨0, _, _, _, _, _, List.replicate ((8 - c.length % 8) % 8) 0, rfl, ?_, ?_, ?_⟩
        · simp only [byte_toNat, and255, Nat.shiftRight_eq_div_pow]
          omega
        · simp only [byte_toNat, and255, Nat.shiftRight_eq_div_pow]
          omega
        · simp only [byte_toNat, List.length_replicate]
          omega
      · simp only [header, List.length_append, List.length_cons, List.length_nil, List.length_replicate]
        omega

theorem writeRecord_large {fail : Nat → Option Str} {t : UInt8} {id : Nat} {c : Bytes} {w : Wire} (h : c.length > 65535) :
    writeRecord fail t id c w = .error c!"fastcgi content too large" := by
  unfold writeRecord; rw [if_pos h]

theorem writeRecord_sends {t : UInt8} {id : Nat} {c : Bytes} {w : Wire} (h : c.length ≤ 65535) :
    ∃ w', writeRecord (fun _ => none) t id c w = .ok w' := by
  unfold writeRecord
  rw [if_neg (by omega)]
  simp only [writeAll, bind, Except.bind]
  cases c.isEmpty <;> by_cases hp : (8 - c.length % 8) % 8 > 0 <;> simp [hp]

/-- **C50 (lengths).** The encoded length of a name or value is the one the protocol prescribes, for every length that can
be encoded; larger ones are refused. -/
theorem C50_length (n : Nat) :
    (n ≤ 0x7fffffff → ∃ b, writeLength n = .ok b ∧ Length n b) ∧
      (n > 0x7fffffff → ∃ e, writeLength n = .error e) := by
  refine ⟨fun h => ?_, fun h => ?_⟩
  · unfold writeLength
    by_cases h1 : n < 128
    · rw [if_pos h1]
      refine ⟨_, rfl, .inl ⟨_, rfl, ?_, ?_⟩⟩
      · rw [byte_toNat]; omega
      · rw [byte_toNat]; omega
    · rw [if_neg h1, if_neg (by omega)]
      refine ⟨_, rfl, .inr ⟨_, _, _, _, rfl, ?_, ?_⟩⟩
      · rw [or128 _ (by rw [byte_toNat, Nat.shiftRight_eq_div_pow]; omega)]; omega
      · rw [or128 _ (by rw [byte_toNat, Nat.shiftRight_eq_div_pow]; omega)]
        simp only [byte_toNat, Nat.shiftRight_eq_div_pow]
        omega
  · unfold writeLength
    rw [if_neg (by omega), if_pos h]
    exact ⟨_, rfl⟩

/-- A length can be read in one way only, whatever follows it. -/
theorem length_unique {n m : Nat} {a b x y : List UInt8} (ha : Length n a) (hb : Length m b) (h : a ++ x = b ++ y) :
    n = m ∧ a = b ∧ x = y := by
  rcases ha with ⟨u, rfl, hu, rfl⟩ | ⟨u3, u2, u1, u0, rfl, hu, rfl⟩ <;>
    rcases hb with ⟨v, rfl, hv, rfl⟩ | ⟨v3, v2, v1, v0, rfl, hv, rfl⟩ <;>
    simp only [List.cons_append, List.nil_append, List.cons.injEq] at h
  · obtain ⟨rfl, rfl⟩ := h; exact ⟨rfl, rfl, rfl⟩
  · obtain ⟨rfl, _⟩ := h; omega
  · obtain ⟨rfl, _⟩ := h; omega
  · obtain ⟨rfl, rfl, rfl, rfl, rfl⟩ := h; exact ⟨rfl, rfl, rfl⟩

/-- **C50 (pairs are unambiguous).** A reader can decode name-value pairs in one way only. -/
theorem C50_pairs_unique (ps qs : List (Bytes × Bytes)) (b : Bytes) (hp : Pairs ps b) (hq : Pairs qs b) : ps = qs := by
  induction ps generalizing qs b with
  | nil =>
    cases qs with
    | nil => rfl
    | cons q qs =>
      obtain ⟨n, v⟩ := q
      obtain ⟨ln, lv, rest, h, hl, _⟩ := hq
      simp only [Pairs] at hp
      rw [hp] at h
      rcases hl with ⟨x, rfl, _⟩ | ⟨_, _, _, _, rfl, _⟩ <;> simp at h
  | cons p ps ih =>
    obtain ⟨n, v⟩ := p
    obtain ⟨ln, lv, rest, h, hln, hlv, hr⟩ := hp
    cases qs with
    | nil =>
      simp only [Pairs] at hq
      rw [hq] at h
      rcases hln with ⟨x, rfl, _⟩ | ⟨_, _, _, _, rfl, _⟩ <;> simp at h
    | cons q qs =>
      obtain ⟨n', v'⟩ := q
      obtain ⟨ln', lv', rest', h', hln', hlv', hr'⟩ := hq
      rw [h] at h'
      simp only [List.append_assoc] at h'
      obtain ⟨e1, _, h1⟩ := length_unique hln hln' h'
      obtain ⟨e2, _, h2⟩ := length_unique hlv hlv' h1
      obtain ⟨rfl, h3⟩ := List.append_inj h2 e1
      obtain ⟨rfl, rfl⟩ := List.append_inj h3 e2
      rw [ih qs rest hr hr']

theorem framed_unique {r s : Record} {a b x y : List UInt8} (ha : Framed r a) (hb : Framed s b) (h : a ++ x = b ++ y) :
    r = s ∧ a = b ∧ x = y := by
  obtain ⟨rv, i1, i0, l1, l0, p, pd, rfl, hid, hl, hp⟩ := ha
  obtain ⟨rv', i1', i0', l1', l0', p', pd', rfl, hid', hl', hp'⟩ := hb
  simp only [List.cons_append, List.nil_append, List.append_assoc, List.cons.injEq] at h
  obtain ⟨_, ht, rfl, rfl, rfl, rfl, rfl, rfl, h⟩ := h
  obtain ⟨hc, h⟩ := List.append_inj h (by omega)
  obtain ⟨rfl, rfl⟩ := List.append_inj h (by omega)
  obtain ⟨t, i, c⟩ := r
  obtain ⟨t', i', c'⟩ := s
  dsimp only at hc ht hid hid'
  subst hc; subst ht; subst hid; subst hid'
  exact ⟨rfl, rfl, rfl⟩

theorem framed_length {r : Record} {b : List UInt8} (h : Framed r b) : 8 ≤ b.length := by
  obtain ⟨_, _, _, _, _, _, _, rfl, _⟩ := h
  simp only [List.length_append, List.length_cons]
  omega

/-- **C50 (framing is unambiguous).** A standard reader recovers the records of a stream in one way only. -/
theorem C50_stream_unique (rs ss : List Record) (b : Bytes) (hr : Frames rs b) (hs : Frames ss b) : rs = ss := by
  induction rs generalizing ss b with
  | nil =>
    cases ss with
    | nil => rfl
    | cons s ss =>
      obtain ⟨b1, b2, h, hf, _⟩ := hs
      have := framed_length hf
      simp only [Frames] at hr
      subst hr
      have := congrArg List.length h
      simp only [List.length_nil, List.length_append] at this
      omega
  | cons r rs ih =>
    obtain ⟨b1, b2, h, hf, hr⟩ := hr
    cases ss with
    | nil =>
      have := framed_length hf
      simp only [Frames] at hs
      subst hs
      have := congrArg List.length h
      simp only [List.length_nil, List.length_append] at this
      omega
    | cons s ss =>
      obtain ⟨c1, c2, h', hf', hs⟩ := hs
      rw [h] at h'
      obtain ⟨rfl, rfl, rfl⟩ := framed_unique hf hf' h'
      rw [ih ss b2 hr hs]

theorem writePair_ok {n v b : Bytes} (h : writePair n v = .ok b) :
    ∃ ln lv, b = ln ++ lv ++ n ++ v ∧ Length n.length ln ∧ Length v.length lv := by
  unfold writePair at h
  simp only [bind, Except.bind, pure, Except.pure] at h
  have key : ∀ (k : Nat) (x : Bytes), writeLength k = .ok x → Length k x := by
    intro k x hx
    by_cases hk : k ≤ 0x7fffffff
    · obtain ⟨y, hy, hl⟩ := (C50_length k).1 hk
      rw [hx] at hy
      simp only [Except.ok.injEq] at hy
      rw [hy]; exact hl
    · obtain ⟨e, he⟩ := (C50_length k).2 (by omega)
      rw [hx] at he; simp at he
  cases h1 : writeLength n.length with
  | error e => rw [h1] at h; simp at h
  | ok a =>
    cases h2 : writeLength v.length with
    | error e => rw [h1, h2] at h; simp at h
    | ok c =>
      rw [h1, h2] at h
      simp only [Except.ok.injEq] at h
      exact ⟨a, c, by rw [← h], key _ _ h1, key _ _ h2⟩

theorem writePairs_ok (ps : List (Str × Str)) : ∀ b, writePairs ps = .ok b →
    Pairs (ps.map (fun p => (utf8 p.1, utf8 p.2))) b := by
  induction ps with
  | nil => intro b h; simp only [writePairs, Except.ok.injEq] at h; exact h.symm
  | cons p ps ih =>
    intro b h
    obtain ⟨n, v⟩ := p
    simp only [writePairs, bind, Except.bind, pure, Except.pure] at h
    cases h1 : writePair (utf8 n) (utf8 v) with
    | error e => rw [h1] at h; simp at h
    | ok a =>
      cases h2 : writePairs ps with
      | error e => rw [h1, h2] at h; simp at h
      | ok c =>
        rw [h1, h2] at h
        simp only [Except.ok.injEq] at h
        obtain ⟨ln, lv, rfl, hl, hv⟩ := writePair_ok h1
        exact ⟨ln, lv, c, h.symm, hl, hv, ih c h2⟩

theorem stream_snoc {rs : List Record} {r : Record} {a b : List UInt8} (h : Frames rs a) (hb : Framed r b) :
    Frames (rs ++ [r]) (a ++ b) := by
  induction rs generalizing a with
  | nil => simp only [Frames] at h; subst h; exact ⟨b, [], by simp, hb, rfl⟩
  | cons s rs ih =>
    obtain ⟨b1, b2, rfl, hf, hs⟩ := h
    exact ⟨b1, b2 ++ b, by simp, hf, ih hs⟩

theorem stream_append {rs ss : List Record} {a b : List UInt8} (h : Frames rs a) (hb : Frames ss b) :
    Frames (rs ++ ss) (a ++ b) := by
  induction rs generalizing a with
  | nil => simp only [Frames] at h; subst h; exact hb
  | cons s rs ih =>
    obtain ⟨b1, b2, rfl, hf, hs⟩ := h
    exact ⟨b1, b2 ++ b, by simp, hf, ih hs⟩

/-- The parameters of the request, as text. -/
def Spec.FastCgi.paramsFor (body : Bytes) (bridge : Str) : List (Str × Str) := [
  (c!"SCRIPT_FILENAME", bridge), (c!"SCRIPT_NAME", bridge), (c!"REQUEST_METHOD", c!"POST"),
  (c!"CONTENT_TYPE", c!"application/json"), (c!"CONTENT_LENGTH", showNat body.length), (c!"SERVER_PROTOCOL", c!"HTTP/1.1"),
  (c!"GATEWAY_INTERFACE", c!"CGI/1.1"), (c!"REQUEST_URI", c!"/"), (c!"DOCUMENT_ROOT", c!"/"),
  (c!"REMOTE_ADDR", c!"127.0.0.1"), (c!"REMOTE_PORT", c!"0"), (c!"SERVER_ADDR", c!"127.0.0.1"), (c!"SERVER_PORT", c!"80"),
  (c!"SERVER_NAME", c!"neutralts")]

/-- The records of a request: begin (responder, no flags), the parameters, end of parameters, the body, end of body. -/
def Spec.FastCgi.request (params body : Bytes) : List Record :=
  [⟨1, 1, [0, 1, 0, 0, 0, 0, 0, 0]⟩, ⟨4, 1, params⟩, ⟨4, 1, []⟩] ++
    (if body = [] then [] else [⟨5, 1, body⟩]) ++ [⟨5, 1, []⟩]

theorem sendEnd_ok {fail : Nat → Option Str} {flush : Option Str} {w w5 : Wire}
    (hw : (writeRecord fail 5 1 [] w5).bind (fun w6 => match flush with
      | some e => Except.error e
      | none => Except.ok w6) = Except.ok w) :
      ∃ b6, w.sent = w5.sent ++ b6 ∧ Framed ⟨5, 1, []⟩ b6 ∧ 8 ∣ b6.length := by
    cases h6 : writeRecord fail 5 1 [] w5 with
    | error e => rw [h6] at hw; simp [Except.bind] at hw
    | ok w6 =>
      rw [h6] at hw
      cases flush with
      | some e => simp [Except.bind] at hw
      | none => simp only [Except.bind, Except.ok.injEq] at hw; subst hw; exact writeRecord_framed (by decide) h6

/-- **C50 (request).** Whenever the client reports that a request was sent, the bytes on the wire are the frames of exactly
the records of that request, aligned to 8 bytes, and its parameters decode to the expected names and values. -/
theorem C50_request (fail : Nat → Option Str) (flush : Option Str) (body : Bytes) (bridge : Str) (w : Wire)
    (h : sendRequest fail flush body bridge = .ok w) :
    ∃ params, Frames (request params body) w.sent ∧
      Pairs ((paramsFor body bridge).map (fun p => (utf8 p.1, utf8 p.2))) params ∧ 8 ∣ w.sent.length := by
  unfold sendRequest at h
  simp only [bind] at h
  cases h1 : writeRecord fail 1 1 [0, 1, 0, 0, 0, 0, 0, 0] Wire.new with
  | error e => rw [h1] at h; simp [Except.bind] at h
  | ok w1 =>
  rw [h1] at h
  simp only [Except.bind.eq_2] at h
  cases h2 : writePairs (requestParams body.length bridge) with
  | error e => rw [h2] at h; simp [Except.bind] at h
  | ok buf =>
  rw [h2] at h
  simp only [Except.bind.eq_2] at h
  have hbuf := writePairs_ok _ _ h2
  have hne : buf ≠ [] := by
    intro hb
    obtain ⟨ln, lv, rest, hx, hl, _⟩ := hbuf
    rw [hb] at hx
    rcases hl with ⟨x, rfl, _⟩ | ⟨_, _, _, _, rfl, _⟩ <;> simp at hx
  rw [if_pos (by cases buf with | nil => simp at hne | cons _ _ => rfl)] at h
  cases h3 : writeRecord fail 4 1 buf w1 with
  | error e => rw [h3] at h; simp [Except.bind] at h
  | ok w3 =>
  rw [h3] at h
  simp only [Except.bind.eq_2] at h
  cases h4 : writeRecord fail 4 1 [] w3 with
  | error e => rw [h4] at h; simp [Except.bind] at h
  | ok w4 =>
  rw [h4] at h
  simp only [Except.bind.eq_2] at h
  obtain ⟨b1, e1, f1, m1⟩ := writeRecord_framed (by decide) h1
  obtain ⟨b3, e3, f3, m3⟩ := writeRecord_framed (by decide) h3
  obtain ⟨b4, e4, f4, m4⟩ := writeRecord_framed (by decide) h4
  have e0 : w4.sent = b1 ++ b3 ++ b4 := by rw [e4, e3, e1]; rfl
  have s0 : Frames [⟨1, 1, [0, 1, 0, 0, 0, 0, 0, 0]⟩, ⟨4, 1, buf⟩, ⟨4, 1, []⟩] (b1 ++ b3 ++ b4) :=
    stream_snoc (rs := [_, _]) (stream_snoc (rs := [_]) ⟨b1, [], by simp, f1, rfl⟩ f3) f4
  refine ⟨buf, ?_⟩
  by_cases hb : body = []
  · rw [if_neg (by rw [hb]; simp)] at h
    simp only [Except.bind.eq_2] at h
    obtain ⟨b6, e6, f6, m6⟩ := sendEnd_ok (flush := flush) h
    refine ⟨?_, hbuf, ?_⟩
    · unfold request
      rw [if_pos hb, e6, e0, List.append_nil]
      exact stream_snoc s0 f6
    · rw [e6, e0]
      simp only [List.length_append]
      omega
  · rw [if_pos (by cases body with | nil => simp at hb | cons _ _ => rfl)] at h
    cases h5 : writeRecord fail 5 1 body w4 with
    | error e => rw [h5] at h; simp [Except.bind] at h
    | ok w5 =>
      rw [h5] at h
      simp only [Except.bind.eq_2] at h
      obtain ⟨b5, e5, f5, m5⟩ := writeRecord_framed (by decide) h5
      obtain ⟨b6, e6, f6, m6⟩ := sendEnd_ok (flush := flush) h
      refine ⟨?_, hbuf, ?_⟩
      · unfold request
        rw [if_neg hb, e6, e5, e0]
        exact stream_snoc (stream_snoc s0 f5) f6
      · rw [e6, e5, e0]
        simp only [List.length_append]
        omega

/-! ### reading -/

theorem readExact_append (a b : Bytes) : readExact a.length (a ++ b) = some (a, b) := by
  unfold readExact
  rw [if_pos (by simp)]
  simp

/-- One round of the loop on a framed record. -/
theorem readRound_frame {e : Ending} {r : Record} {b s out err : Bytes} (h : Framed r b) :
    readRound e (b ++ s) out err =
      if r.id ≠ 1 then .next s out err
      else if r.type = 6 then .next s (out ++ r.content) err
      else if r.type = 7 then .next s out (err ++ r.content)
      else if r.type = 3 then .done (.ok (out, err))
      else .next s out err := by
  obtain ⟨rv, i1, i0, l1, l0, p, pd, rfl, hid, hl, hp⟩ := h
  unfold readRound
  have h8 : readExact 8 ([1, r.type, i1, i0, l1, l0, p, rv] ++ r.content ++ pd ++ s) =
      some ([1, r.type, i1, i0, l1, l0, p, rv], r.content ++ (pd ++ s)) := by
    have := readExact_append [1, r.type, i1, i0, l1, l0, p, rv] (r.content ++ (pd ++ s))
    simpa using this
  rw [h8]
  dsimp only
  rw [if_neg (by simp)]
  have hc : be16 l1 l0 = r.content.length := by unfold be16; omega
  rw [hc, readExact_append]
  dsimp only
  rw [← hp, readExact_append]
  dsimp only
  have hi : be16 i1 i0 = r.id := by unfold be16; omega
  rw [hi]

theorem readLoop_frame {e : Ending} {n : Nat} {r : Record} {b s out err : Bytes} (h : Framed r b) :
    readLoop e (n + 1) (b ++ s) out err =
      if r.id ≠ 1 then readLoop e n s out err
      else if r.type = 6 then readLoop e n s (out ++ r.content) err
      else if r.type = 7 then readLoop e n s out (err ++ r.content)
      else if r.type = 3 then some (.ok (out, err))
      else readLoop e n s out err := by
  rw [readLoop, readRound_frame h]
  by_cases h1 : r.id ≠ 1
  · simp only [if_pos h1]
  · by_cases h2 : r.type = 6
    · simp only [if_neg h1, if_pos h2]
    · by_cases h3 : r.type = 7
      · simp only [if_neg h1, if_neg h2, if_pos h3]
      · by_cases h4 : r.type = 3
        · simp only [if_neg h1, if_neg h2, if_neg h3, if_pos h4]
        · simp only [if_neg h1, if_neg h2, if_neg h3, if_neg h4]

/-- No end of request 1 among the records. -/
def Spec.FastCgi.Open (rs : List Record) : Prop := ∀ r ∈ rs, ¬ (r.type = 3 ∧ r.id = 1)

theorem carried_cons (t : UInt8) (i : Nat) (r : Record) (rs : List Record) :
    carried t i (r :: rs) = (if r.type = t ∧ r.id = i then r.content else []) ++ carried t i rs := by
  unfold carried
  by_cases h : r.type = t ∧ r.id = i
  · rw [if_pos h, List.filter_cons_of_pos (by simp [h.1, h.2])]
    simp
  · rw [if_neg h, List.filter_cons_of_neg (by simpa using h)]
    simp

theorem readLoop_stream {e : Ending} (rs : List Record) (ho : Open rs) :
    ∀ (n : Nat) (b s out err : Bytes), Frames rs b →
      readLoop e (rs.length + n) (b ++ s) out err = readLoop e n s (out ++ carried 6 1 rs) (err ++ carried 7 1 rs) := by
  induction rs with
  | nil => intro n b s out err h; simp only [Frames] at h; subst h; simp [carried]
  | cons r rs ih =>
    intro n b s out err h
    obtain ⟨b1, b2, rfl, hf, hs⟩ := h
    have ih := fun out err => ih (fun x hx => ho x (by simp [hx])) n b2 s out err hs
    have hlen : (r :: rs).length + n = (rs.length + n) + 1 := by simp only [List.length_cons]; omega
    rw [hlen, List.append_assoc, readLoop_frame hf, carried_cons, carried_cons]
    have hr := ho r (by simp)
    by_cases h1 : r.id = 1
    · rw [if_neg (by simp [h1])]
      by_cases h6 : r.type = 6
      · rw [if_pos h6, ih, if_pos ⟨h6, h1⟩, if_neg (by rw [h6]; simp)]
        simp
      · rw [if_neg h6]
        by_cases h7 : r.type = 7
        · rw [if_pos h7, ih, if_neg (by simp [h6]), if_pos ⟨h7, h1⟩]
          simp
        · rw [if_neg h7, if_neg (fun h3 => hr ⟨h3, h1⟩), ih, if_neg (by simp [h6]), if_neg (by simp [h7])]
          simp
    · rw [if_pos h1, ih, if_neg (by simp [h1]), if_neg (by simp [h1])]
      simp

theorem stream_length {rs : List Record} {b : Bytes} (h : Frames rs b) : rs.length ≤ b.length := by
  induction rs generalizing b with
  | nil => simp
  | cons r rs ih =>
    obtain ⟨b1, b2, rfl, hf, hs⟩ := h
    have := framed_length hf
    have := ih hs
    simp only [List.length_cons, List.length_append]
    omega

theorem readLoop_mono {e : Ending} : ∀ (n m : Nat) (s out err : Bytes) (x : Except Str (Bytes × Bytes)),
    readLoop e n s out err = some x → n ≤ m → readLoop e m s out err = some x := by
  intro n
  induction n with
  | zero => intro m s out err x h; simp [readLoop] at h
  | succ n ih =>
    intro m s out err x h hm
    obtain ⟨m, rfl⟩ : ∃ k, m = k + 1 := ⟨m - 1, by omega⟩
    rw [readLoop] at h ⊢
    cases hr : readRound e s out err with
    | done r => rw [hr] at h; exact h
    | next s' out' err' => rw [hr] at h; exact ih m _ _ _ _ h (by omega)

theorem readRound_less {e : Ending} {s out err s' out' err' : Bytes} (h : readRound e s out err = .next s' out' err') :
    s'.length + 8 ≤ s.length := by
  have key : ∀ (n : Nat) (s a b : Bytes), readExact n s = some (a, b) → b.length + n = s.length := by
    intro n s a b hx
    unfold readExact at hx
    split at hx
    · simp only [Option.some.injEq, Prod.mk.injEq] at hx
      rw [← hx.2]; simp only [List.length_drop]; omega
    · simp at hx
  unfold readRound at h
  split at h
  · simp at h
  · next hh s8 h8 =>
    have k1 := key _ _ _ _ h8
    split at h
    · split at h
      · simp at h
      · split at h
        · simp at h
        · next h2 =>
          have k2 := key _ _ _ _ h2
          split at h
          · simp at h
          · next h3 =>
            have k3 := key _ _ _ _ h3
            repeat' split at h
            all_goals first
              | (simp only [Round.next.injEq] at h; obtain ⟨rfl, _⟩ := h; omega)
              | simp at h
    · simp at h

/-- Reading a response ends, whatever the peer sends. -/
theorem readResponse_total (r : Incoming) : ∃ x, readResponse r = some x := by
  have key : ∀ (n : Nat) (s out err : Bytes), s.length < n → ∃ x, readLoop r.ending n s out err = some x := by
    intro n
    induction n with
    | zero => intro s out err h; omega
    | succ n ih =>
      intro s out err h
      rw [readLoop]
      cases hr : readRound r.ending s out err with
      | done x => exact ⟨x, rfl⟩
      | next s' out' err' => exact ih _ _ _ (by have := readRound_less hr; omega)
  exact key _ _ _ _ (by omega)

/-- **C50 (response).** When the peer answers with any well-formed sequence of records in which request 1 is ended - records
of other requests and of other types may be interleaved, contents may be split and padded at will, anything may follow - the
client obtains exactly the concatenated STDOUT and STDERR contents of request 1 before its end. -/
theorem C50_response (rs rest : List Record) (content b tail : Bytes) (e : Ending) (ho : Open rs)
    (hb : Frames (rs ++ ⟨3, 1, content⟩ :: rest) b) :
    readResponse ⟨b ++ tail, e⟩ = some (.ok (carried 6 1 rs, carried 7 1 rs)) := by
  have hsplit : ∀ (rs : List Record) (b : Bytes), Frames (rs ++ ⟨3, 1, content⟩ :: rest) b →
      ∃ b1 b2 b3, b = b1 ++ (b2 ++ b3) ∧ Frames rs b1 ∧ Framed ⟨3, 1, content⟩ b2 := by
    intro rs
    induction rs with
    | nil => intro b h; obtain ⟨b1, b2, rfl, hf, hs⟩ := h; exact ⟨[], b1, b2, rfl, rfl, hf⟩
    | cons r rs ih =>
      intro b h
      obtain ⟨c1, c2, rfl, hf, hs⟩ := h
      obtain ⟨b1, b2, b3, rfl, h1, h2⟩ := ih _ hs
      exact ⟨c1 ++ b1, b2, b3, by simp, ⟨c1, b1, rfl, hf, h1⟩, h2⟩
  obtain ⟨b1, b2, b3, rfl, h1, h2⟩ := hsplit rs b hb
  have hl := stream_length h1
  have key : readLoop e (rs.length + 1) ((b1 ++ (b2 ++ b3)) ++ tail) [] [] =
      some (.ok (carried 6 1 rs, carried 7 1 rs)) := by
    have := readLoop_stream (e := e) rs ho 1 b1 ((b2 ++ b3) ++ tail) [] [] h1
    rw [List.append_assoc, this, List.append_assoc, readLoop_frame h2]
    simp
  unfold readResponse
  refine readLoop_mono _ _ _ _ _ _ key ?_
  simp only [List.length_append]
  omega

/-- ... and when the peer closes the connection without ending the request, provided some output came. -/
theorem C50_response_closed (rs : List Record) (b : Bytes) (ho : Open rs) (hb : Frames rs b)
    (hne : carried 6 1 rs ≠ [] ∨ carried 7 1 rs ≠ []) :
    readResponse ⟨b, .eof⟩ = some (.ok (carried 6 1 rs, carried 7 1 rs)) := by
  have hl := stream_length hb
  have key : readLoop .eof (rs.length + 1) (b ++ []) [] [] = some (.ok (carried 6 1 rs, carried 7 1 rs)) := by
    rw [readLoop_stream rs ho 1 b [] [] [] hb]
    simp only [List.nil_append]
    rw [readLoop]
    unfold readRound
    have : readExact 8 [] = none := by decide
    rw [this]
    simp only [short]
    rw [if_pos]
    rcases hne with h | h
    · cases hc : carried 6 1 rs with
      | nil => exact absurd hc h
      | cons _ _ => simp
    · cases hc : carried 7 1 rs with
      | nil => exact absurd hc h
      | cons _ _ => simp
  rw [List.append_nil] at key
  exact readLoop_mono _ _ _ _ _ _ key (by simp only; omega)

/-! ### C51: sizes -/

theorem framed_small {r : Record} {b : Bytes} (h : Framed r b) : r.content.length ≤ 65535 := by
  obtain ⟨_, _, _, l1, l0, _, _, _, _, hl, _⟩ := h
  have := l1.toNat_lt
  have := l0.toNat_lt
  omega

theorem frames_mem {rs : List Record} {b : Bytes} (h : Frames rs b) {r : Record} (hr : r ∈ rs) : ∃ x, Framed r x := by
  induction rs generalizing b with
  | nil => simp at hr
  | cons s rs ih =>
    obtain ⟨b1, b2, _, hf, hs⟩ := h
    simp only [List.mem_cons] at hr
    rcases hr with rfl | hr
    · exact ⟨b1, hf⟩
    · exact ih hs hr

/-- **C51 (refuted).** No payload of more than 65535 bytes can be sent, however the connection behaves: the call is an
error. -/
theorem C51_refuted (fail : Nat → Option Str) (flush : Option Str) (body : Bytes) (bridge : Str) (h : 65535 < body.length) :
    ∃ e, sendRequest fail flush body bridge = .error e := by
  cases hs : sendRequest fail flush body bridge with
  | error e => exact ⟨e, rfl⟩
  | ok w =>
    obtain ⟨params, hf, _⟩ := C50_request _ _ _ _ _ hs
    have hb : body ≠ [] := by intro hb; rw [hb] at h; simp at h
    obtain ⟨x, hx⟩ := frames_mem (r := ⟨5, 1, body⟩) hf (by unfold request; rw [if_neg hb]; simp)
    have := framed_small hx
    dsimp only at this
    omega

theorem digitsGo_length (k : Nat) : ∀ (f n : Nat) (acc : Str), n < 10 ^ (k + 1) → (digitsGo f n acc).length ≤ acc.length + k + 1 := by
  induction k with
  | zero =>
    intro f n acc h
    cases f with
    | zero => simp only [digitsGo]; omega
    | succ f =>
      simp only [digitsGo]
      rw [if_pos (by omega)]
      simp
  | succ k ih =>
    intro f n acc h
    cases f with
    | zero => simp only [digitsGo]; omega
    | succ f =>
      simp only [digitsGo]
      split
      · simp only [List.length_cons]; omega
      · have := ih f (n / 10) (digitChar (n % 10) :: acc) (by rw [Nat.pow_succ] at h; omega)
        simp only [List.length_cons] at this
        omega

theorem utf8_length_le (s : Str) : (utf8 s).length ≤ 4 * s.length := by
  induction s with
  | nil => simp [utf8]
  | cons c s ih =>
    have h1 : (utf8 (c :: s)).length = (String.utf8EncodeChar c).length + (utf8 s).length := by simp [utf8]
    have h2 : (String.utf8EncodeChar c).length ≤ 4 := by
      rw [String.length_utf8EncodeChar]
      exact Char.utf8Size_le_four c
    simp only [List.length_cons]
    omega

theorem writeLength_short {n : Nat} {b : Bytes} (h : writeLength n = .ok b) : b.length ≤ 4 := by
  unfold writeLength at h
  split at h
  · simp only [Except.ok.injEq] at h; rw [← h]; simp
  · split at h
    · simp at h
    · simp only [Except.ok.injEq] at h; rw [← h]; simp

theorem writePair_small (n v : Bytes) (hn : n.length ≤ 32000) (hv : v.length ≤ 32000) :
    ∃ b, writePair n v = .ok b ∧ b.length ≤ 8 + n.length + v.length := by
  obtain ⟨a, ha, _⟩ := (C50_length n.length).1 (by omega)
  obtain ⟨c, hc, _⟩ := (C50_length v.length).1 (by omega)
  have h1 := writeLength_short ha
  have h2 := writeLength_short hc
  unfold writePair
  rw [ha, hc]
  refine ⟨_, rfl, ?_⟩
  simp only [List.length_append]
  omega

theorem writePairs_small (ps : List (Str × Str)) (h : ∀ p ∈ ps, (utf8 p.1).length ≤ 32000 ∧ (utf8 p.2).length ≤ 32000) :
    ∃ b, writePairs ps = .ok b ∧
      b.length ≤ (ps.map (fun p => 8 + (utf8 p.1).length + (utf8 p.2).length)).sum := by
  induction ps with
  | nil => exact ⟨[], rfl, by simp⟩
  | cons p ps ih =>
    obtain ⟨n, v⟩ := p
    obtain ⟨hn, hv⟩ := h (n, v) (by simp)
    obtain ⟨a, ha, la⟩ := writePair_small _ _ hn hv
    obtain ⟨b, hb, lb⟩ := ih (fun q hq => h q (by simp [hq]))
    refine ⟨a ++ b, ?_, ?_⟩
    · simp only [writePairs]
      rw [ha, hb]
      rfl
    · simp only [List.length_append, List.map_cons, List.sum_cons]
      dsimp only at la
      omega

/-- The parameters that are always the same. -/
def fixedParams : List (Str × Str) := [(c!"REQUEST_METHOD", c!"POST"),
  (c!"CONTENT_TYPE", c!"application/json"), (c!"SERVER_PROTOCOL", c!"HTTP/1.1"),
  (c!"GATEWAY_INTERFACE", c!"CGI/1.1"), (c!"REQUEST_URI", c!"/"), (c!"DOCUMENT_ROOT", c!"/"),
  (c!"REMOTE_ADDR", c!"127.0.0.1"), (c!"REMOTE_PORT", c!"0"), (c!"SERVER_ADDR", c!"127.0.0.1"), (c!"SERVER_PORT", c!"80"),
  (c!"SERVER_NAME", c!"neutralts")]

/-- Bytes of a pair, at most. -/
def pairBytes (p : Str × Str) : Nat := 8 + (utf8 p.1).length + (utf8 p.2).length

theorem requestParams_sum (n : Nat) (b : Str) :
    ((requestParams n b).map pairBytes).sum = pairBytes (c!"SCRIPT_FILENAME", b) + pairBytes (c!"SCRIPT_NAME", b) +
      pairBytes (c!"CONTENT_LENGTH", showNat n) + (fixedParams.map pairBytes).sum := by
  simp only [requestParams, fixedParams, List.map_cons, List.map_nil, List.sum_cons, List.sum_nil]
  omega

theorem requestParams_mem {n : Nat} {b : Str} {p : Str × Str} (h : p ∈ requestParams n b) :
    p = (c!"SCRIPT_FILENAME", b) ∨ p = (c!"SCRIPT_NAME", b) ∨ p = (c!"CONTENT_LENGTH", showNat n) ∨ p ∈ fixedParams := by
  simp only [requestParams, fixedParams, List.mem_cons, List.not_mem_nil, or_false] at h ⊢
  rcases h with h | h | h | h | h | h | h | h | h | h | h | h | h | h <;> simp only [h, true_or, or_true]

/-- **C51 (partial).** Payloads of up to 65535 bytes are sent when the connection accepts the bytes (and the path of the
script is not absurdly long).  Missing: larger payloads, see `C51_refuted`. -/
theorem C51_partial (body : Bytes) (bridge : Str) (h : body.length ≤ 65535) (hb : (utf8 bridge).length ≤ 32000) :
    ∃ w, sendRequest (fun _ => none) none body bridge = .ok w := by
  have hd : (utf8 (showNat body.length)).length ≤ 20 := by
    have h1 := utf8_length_le (showNat body.length)
    have h2 := digitsGo_length 4 (body.length + 1) body.length [] (by omega)
    unfold showNat at h1 ⊢
    simp only [List.length_nil] at h2
    omega
  have e1 : (utf8 c!"SCRIPT_FILENAME").length = 15 := by decide
  have e2 : (utf8 c!"SCRIPT_NAME").length = 11 := by decide
  have e3 : (utf8 c!"CONTENT_LENGTH").length = 14 := by decide
  have e4 : (fixedParams.map pairBytes).sum ≤ 1000 := by decide
  have e5 : ∀ p ∈ fixedParams, (utf8 p.1).length ≤ 32000 ∧ (utf8 p.2).length ≤ 32000 := by decide
  obtain ⟨buf, hbuf, lbuf⟩ := writePairs_small (requestParams body.length bridge) (by
    intro p hp
    rcases requestParams_mem hp with rfl | rfl | rfl | hp
    · dsimp only; omega
    · dsimp only; omega
    · dsimp only; omega
    · exact e5 p hp)
  have lb : buf.length ≤ 65535 := by
    refine Nat.le_trans lbuf ?_
    have := requestParams_sum body.length bridge
    unfold pairBytes at this e4
    dsimp only at this
    rw [this]
    omega
  unfold sendRequest
  simp only [bind]
  obtain ⟨w1, h1⟩ := writeRecord_sends (t := 1) (id := 1) (c := [0, 1, 0, 0, 0, 0, 0, 0]) (w := Wire.new) (by decide)
  rw [h1, hbuf]
  simp only [Except.bind]
  obtain ⟨w2, h2⟩ : ∃ w2, (if (!List.isEmpty buf) = true then writeRecord (fun _ => none) 4 1 buf w1 else .ok w1) =
      Except.ok w2 := by
    split
    · exact writeRecord_sends lb
    · exact ⟨_, rfl⟩
  rw [h2]
  simp only
  obtain ⟨w3, h3⟩ := writeRecord_sends (t := 4) (id := 1) (c := []) (w := w2) (by decide)
  rw [h3]
  simp only
  obtain ⟨w4, h4⟩ : ∃ w4, (if (!List.isEmpty body) = true then writeRecord (fun _ => none) 5 1 body w3 else .ok w3) =
      Except.ok w4 := by
    split
    · exact writeRecord_sends h
    · exact ⟨_, rfl⟩
  rw [h4]
  simp only
  obtain ⟨w5, h5⟩ := writeRecord_sends (t := 5) (id := 1) (c := []) (w := w4) (by decide)
  rw [h5]
  exact ⟨_, rfl⟩

/-! ### C56: a peer that stops -/

theorem readExact_none {n : Nat} {s : Bytes} (h : s.length < n) : readExact n s = none := by
  unfold readExact; rw [if_neg (by omega)]

/-- A frame that is cut short ends the loop. -/
theorem readRound_cut {e : Ending} {r : Record} {b b' x out err : Bytes} (h : Framed r b) (hb : b = b' ++ x) (hx : x ≠ []) :
    readRound e b' out err = .done (short e out err) := by
  have hxl : 0 < x.length := by cases x with | nil => simp at hx | cons _ _ => simp
  obtain ⟨rv, i1, i0, l1, l0, p, pd, rfl, hid, hl, hp⟩ := h
  unfold readRound
  by_cases h8 : b'.length < 8
  · rw [readExact_none h8]
  · -- the header is complete
    have hlen := congrArg List.length hb
    simp only [List.length_append, List.length_cons, List.length_nil] at hlen
    obtain ⟨c, rfl, hc⟩ : ∃ c, b' = [1, r.type, i1, i0, l1, l0, p, rv] ++ c ∧ r.content ++ pd = c ++ x := by
      have h1 : [1, r.type, i1, i0, l1, l0, p, rv] ++ (r.content ++ pd) = b'.take 8 ++ (b'.drop 8 ++ x) := by
        rw [← List.append_assoc, ← List.append_assoc, List.take_append_drop]; exact hb
      obtain ⟨h2, h3⟩ := List.append_inj h1 (by simp; omega)
      exact ⟨b'.drop 8, by rw [h2, List.take_append_drop], h3⟩
    have hr : readExact 8 ([1, r.type, i1, i0, l1, l0, p, rv] ++ c) = some ([1, r.type, i1, i0, l1, l0, p, rv], c) :=
      readExact_append [1, r.type, i1, i0, l1, l0, p, rv] c
    rw [hr]
    dsimp only
    rw [if_neg (by simp)]
    have hcl : be16 l1 l0 = r.content.length := by unfold be16; omega
    rw [hcl]
    have hlen2 := congrArg List.length hc
    simp only [List.length_append] at hlen2
    by_cases hcc : c.length < r.content.length
    · rw [readExact_none hcc]
    · obtain ⟨d, rfl, hd⟩ : ∃ d, c = r.content ++ d ∧ pd = d ++ x := by
        have h1 : r.content ++ pd = c.take r.content.length ++ (c.drop r.content.length ++ x) := by
          rw [← List.append_assoc, List.take_append_drop]; exact hc
        obtain ⟨h2, h3⟩ := List.append_inj h1 (by simp; omega)
        refine ⟨c.drop r.content.length, ?_, h3⟩
        conv => lhs; rw [← List.take_append_drop r.content.length c]
        rw [← h2]
      rw [readExact_append]
      dsimp only
      have : d.length < p.toNat := by rw [← hp, hd]; simp only [List.length_append]; omega
      rw [readExact_none this]

/-- What can be read of an answer that stops at any byte: an error, or the contents of the first records. -/
theorem readLoop_cut {e : Ending} (rs : List Record) : ∀ (n : Nat) (b b' x out err o er : Bytes), Frames rs b → b = b' ++ x →
    readLoop e n b' out err = some (.ok (o, er)) →
    ∃ k, o = out ++ carried 6 1 (rs.take k) ∧ er = err ++ carried 7 1 (rs.take k) := by
  induction rs with
  | nil =>
    intro n b b' x out err o er h hb hr
    simp only [Frames] at h
    rw [h] at hb
    have : b' = [] := by
      cases b' with
      | nil => rfl
      | cons _ _ => simp at hb
    subst this
    refine ⟨0, ?_⟩
    cases n with
    | zero => simp [readLoop] at hr
    | succ n =>
      rw [readLoop] at hr
      have : readRound e [] out err = .done (short e out err) := rfl
      rw [this] at hr
      simp only [Option.some.injEq] at hr
      unfold short at hr
      split at hr
      · split at hr
        · simp only [Except.ok.injEq, Prod.mk.injEq] at hr
          simp [carried, hr.1, hr.2]
        · simp at hr
      · simp at hr
  | cons r rs ih =>
    intro n b b' x out err o er h hb hr
    obtain ⟨b1, b2, rfl, hf, hs⟩ := h
    cases n with
    | zero => simp [readLoop] at hr
    | succ n =>
      by_cases hl : b'.length < b1.length
      · -- the first frame is cut
        have hx : ∃ y, b1 = b' ++ y ∧ y ≠ [] := by
          have h1 : b1.take b'.length ++ (b1.drop b'.length ++ b2) = b' ++ x := by
            rw [← List.append_assoc, List.take_append_drop]; exact hb
          obtain ⟨h2, _⟩ := List.append_inj h1 (by simp; omega)
          refine ⟨b1.drop b'.length, ?_, ?_⟩
          · conv => lhs; rw [← List.take_append_drop b'.length b1]
            rw [h2]
          · intro h0
            have := congrArg List.length h0
            simp only [List.length_drop, List.length_nil] at this
            omega
        obtain ⟨y, hy, hy0⟩ := hx
        rw [readLoop, readRound_cut hf hy hy0] at hr
        refine ⟨0, ?_⟩
        simp only [Option.some.injEq] at hr
        unfold short at hr
        split at hr
        · split at hr
          · simp only [Except.ok.injEq, Prod.mk.injEq] at hr
            simp [carried, hr.1, hr.2]
          · simp at hr
        · simp at hr
      · obtain ⟨c, rfl, hc⟩ : ∃ c, b' = b1 ++ c ∧ b2 = c ++ x := by
          have h1 : b1 ++ b2 = b'.take b1.length ++ (b'.drop b1.length ++ x) := by
            rw [← List.append_assoc, List.take_append_drop]; exact hb
          obtain ⟨h2, h3⟩ := List.append_inj h1 (by simp; omega)
          refine ⟨b'.drop b1.length, ?_, h3⟩
          conv => lhs; rw [← List.take_append_drop b1.length b']
          rw [← h2]
        rw [readLoop_frame hf] at hr
        by_cases h1 : r.id ≠ 1
        · rw [if_pos h1] at hr
          obtain ⟨k, hk1, hk2⟩ := ih n b2 c x out err o er hs hc hr
          exact ⟨k + 1, by rw [List.take_succ_cons, carried_cons, if_neg (by simp [h1])]; simpa using hk1,
            by rw [List.take_succ_cons, carried_cons, if_neg (by simp [h1])]; simpa using hk2⟩
        · rw [if_neg h1] at hr
          have h1 : r.id = 1 := by omega
          by_cases h6 : r.type = 6
          · rw [if_pos h6] at hr
            obtain ⟨k, hk1, hk2⟩ := ih n b2 c x _ err o er hs hc hr
            exact ⟨k + 1, by rw [List.take_succ_cons, carried_cons, if_pos ⟨h6, h1⟩]; simpa using hk1,
              by rw [List.take_succ_cons, carried_cons, if_neg (by simp [h6])]; simpa using hk2⟩
          · rw [if_neg h6] at hr
            by_cases h7 : r.type = 7
            · rw [if_pos h7] at hr
              obtain ⟨k, hk1, hk2⟩ := ih n b2 c x out _ o er hs hc hr
              exact ⟨k + 1, by rw [List.take_succ_cons, carried_cons, if_neg (by simp [h6])]; simpa using hk1,
                by rw [List.take_succ_cons, carried_cons, if_pos ⟨h7, h1⟩]; simpa using hk2⟩
            · rw [if_neg h7] at hr
              by_cases h3 : r.type = 3
              · rw [if_pos h3] at hr
                simp only [Option.some.injEq, Except.ok.injEq, Prod.mk.injEq] at hr
                exact ⟨0, by simp [carried, hr.1], by simp [carried, hr.2]⟩
              · rw [if_neg h3] at hr
                obtain ⟨k, hk1, hk2⟩ := ih n b2 c x out err o er hs hc hr
                exact ⟨k + 1, by rw [List.take_succ_cons, carried_cons, if_neg (by simp [h6])]; simpa using hk1,
                  by rw [List.take_succ_cons, carried_cons, if_neg (by simp [h7])]; simpa using hk2⟩

/-- **C56 (partial).** Whenever the peer stops in the middle of a well-formed answer - after any number of bytes, by closing
the connection or otherwise - the client reports an error or obtains the output carried by the first records of the answer,
never anything else.  Missing: a cut answer is not always reported, see `C56_refuted`. -/
theorem C56_partial (rs : List Record) (b received rest : Bytes) (e : Ending) (hb : Frames rs b) (hr : b = received ++ rest)
    (out err : Bytes) (h : readResponse ⟨received, e⟩ = some (.ok (out, err))) :
    ∃ k, out = carried 6 1 (rs.take k) ∧ err = carried 7 1 (rs.take k) := by
  obtain ⟨k, h1, h2⟩ := readLoop_cut rs _ _ _ _ _ _ _ _ hb hr h
  exact ⟨k, by simpa using h1, by simpa using h2⟩

/-- Every beginning of a stream is some whole records followed by a proper beginning of the next one. -/
theorem frames_split : ∀ (rs : List Record) (b received rest : Bytes), Frames rs b → b = received ++ rest →
    ∃ k b1 y, k ≤ rs.length ∧ Frames (rs.take k) b1 ∧ received = b1 ++ y ∧
      ((k = rs.length ∧ y = []) ∨ ∃ r z, rs[k]? = some r ∧ Framed r (y ++ z) ∧ z ≠ []) := by
  intro rs
  induction rs with
  | nil =>
    intro b received rest h hb
    simp only [Frames] at h
    rw [h] at hb
    have : received = [] := by
      cases received with
      | nil => rfl
      | cons _ _ => simp at hb
    subst this
    exact ⟨0, [], [], Nat.le_refl _, rfl, rfl, .inl ⟨rfl, rfl⟩⟩
  | cons r rs ih =>
    intro b received rest h hb
    obtain ⟨b1, b2, rfl, hf, hs⟩ := h
    by_cases hl : received.length < b1.length
    · have h1 : b1.take received.length ++ (b1.drop received.length ++ b2) = received ++ rest := by
        rw [← List.append_assoc, List.take_append_drop]; exact hb
      obtain ⟨h2, _⟩ := List.append_inj h1 (by simp; omega)
      refine ⟨0, [], received, Nat.zero_le _, rfl, rfl, .inr ⟨r, b1.drop received.length, rfl, ?_, ?_⟩⟩
      · have : received ++ b1.drop received.length = b1 := by
          conv => lhs; lhs; rw [← h2]
          rw [List.take_append_drop]
        rw [this]; exact hf
      · intro h0
        have := congrArg List.length h0
        simp only [List.length_drop, List.length_nil] at this
        omega
    · obtain ⟨c, rfl, hc⟩ : ∃ c, received = b1 ++ c ∧ b2 = c ++ rest := by
        have h1 : b1 ++ b2 = received.take b1.length ++ (received.drop b1.length ++ rest) := by
          rw [← List.append_assoc, List.take_append_drop]; exact hb
        obtain ⟨h2, h3⟩ := List.append_inj h1 (by simp; omega)
        refine ⟨received.drop b1.length, ?_, h3⟩
        conv => lhs; rw [← List.take_append_drop b1.length received]
        rw [← h2]
      obtain ⟨k, b3, y, h1, h2, h3, h4⟩ := ih b2 c rest hs hc
      refine ⟨k + 1, b1 ++ b3, y, by simp only [List.length_cons]; omega, ⟨b1, b3, rfl, hf, h2⟩, by rw [h3, List.append_assoc], ?_⟩
      rcases h4 with ⟨h4, h5⟩ | ⟨r', z, h4, h5⟩
      · exact .inl ⟨by simp only [List.length_cons]; omega, h5⟩
      · exact .inr ⟨r', z, h4, h5⟩

/-- **C56 (exactly).** When the peer closes the connection before the request is ended, after any number of bytes: what was
received is `k` whole records and a proper beginning `y` of the next one; the client obtains exactly the output of the `k`
records, as if it were the whole answer, unless they carry no output at all: only then it reports an error. -/
theorem C56_exact (rs : List Record) (b received rest : Bytes) (ho : Open rs) (hb : Frames rs b) (hr : b = received ++ rest) :
    ∃ k b1 y, k ≤ rs.length ∧ Frames (rs.take k) b1 ∧ received = b1 ++ y ∧
      ((k = rs.length ∧ y = []) ∨ ∃ r z, rs[k]? = some r ∧ Framed r (y ++ z) ∧ z ≠ []) ∧
      readResponse ⟨received, .eof⟩ =
        if carried 6 1 (rs.take k) = [] ∧ carried 7 1 (rs.take k) = [] then some (.error c!"failed to fill whole buffer")
        else some (.ok (carried 6 1 (rs.take k), carried 7 1 (rs.take k))) := by
  obtain ⟨k, b1, y, h1, h2, h3, h4⟩ := frames_split rs b received rest hb hr
  refine ⟨k, b1, y, h1, h2, h3, h4, ?_⟩
  have hround : ∀ out err, readRound .eof y out err = .done (short .eof out err) := by
    intro out err
    rcases h4 with ⟨_, rfl⟩ | ⟨r, z, _, h5, h6⟩
    · rfl
    · exact readRound_cut h5 rfl h6
  have key : readLoop .eof ((rs.take k).length + 1) (b1 ++ y) [] [] =
      some (short .eof (carried 6 1 (rs.take k)) (carried 7 1 (rs.take k))) := by
    rw [readLoop_stream (rs.take k) (fun r hr => ho r (List.take_subset _ _ hr)) 1 b1 y [] [] h2, readLoop, hround]
    simp
  have hlen := stream_length h2
  unfold readResponse
  rw [h3, readLoop_mono _ _ _ _ _ _ key (by simp only [List.length_append]; omega)]
  unfold short
  dsimp only
  cases carried 6 1 (rs.take k) with
  | nil =>
    cases carried 7 1 (rs.take k) with
    | nil => simp
    | cons _ _ => simp
  | cons _ _ => simp

/-- A read that fails otherwise (a timeout, a reset) before the request is ended is always reported. -/
theorem C56_timeout_partial (rs : List Record) (b received rest : Bytes) (e : Str) (ho : Open rs) (hb : Frames rs b)
    (hr : b = received ++ rest) : ∃ m, readResponse ⟨received, .fail e⟩ = some (.error m) := by
  have key : ∀ (rs : List Record) (n : Nat) (b b' x out err : Bytes), Open rs → Frames rs b → b = b' ++ x → ∀ o,
      readLoop (.fail e) n b' out err = some o → ∃ m, o = .error m := by
    intro rs
    induction rs with
    | nil =>
      intro n b b' x out err _ h hb o hr
      simp only [Frames] at h
      rw [h] at hb
      have : b' = [] := by
        cases b' with
        | nil => rfl
        | cons _ _ => simp at hb
      subst this
      cases n with
      | zero => simp [readLoop] at hr
      | succ n =>
        rw [readLoop] at hr
        have : readRound (.fail e) [] out err = .done (.error e) := rfl
        rw [this] at hr
        simp only [Option.some.injEq] at hr
        exact ⟨_, hr.symm⟩
    | cons r rs ih =>
      intro n b b' x out err hop h hb o hr
      have hop' : Open rs := fun y hy => hop y (by simp [hy])
      obtain ⟨b1, b2, rfl, hf, hs⟩ := h
      cases n with
      | zero => simp [readLoop] at hr
      | succ n =>
        by_cases hl : b'.length < b1.length
        · have hx : ∃ y, b1 = b' ++ y ∧ y ≠ [] := by
            have h1 : b1.take b'.length ++ (b1.drop b'.length ++ b2) = b' ++ x := by
              rw [← List.append_assoc, List.take_append_drop]; exact hb
            obtain ⟨h2, _⟩ := List.append_inj h1 (by simp; omega)
            refine ⟨b1.drop b'.length, ?_, ?_⟩
            · conv => lhs; rw [← List.take_append_drop b'.length b1]
              rw [h2]
            · intro h0
              have := congrArg List.length h0
              simp only [List.length_drop, List.length_nil] at this
              omega
          obtain ⟨y, hy, hy0⟩ := hx
          rw [readLoop, readRound_cut hf hy hy0] at hr
          simp only [Option.some.injEq] at hr
          exact ⟨e, hr.symm⟩
        · obtain ⟨c, rfl, hc⟩ : ∃ c, b' = b1 ++ c ∧ b2 = c ++ x := by
            have h1 : b1 ++ b2 = b'.take b1.length ++ (b'.drop b1.length ++ x) := by
              rw [← List.append_assoc, List.take_append_drop]; exact hb
            obtain ⟨h2, h3⟩ := List.append_inj h1 (by simp; omega)
            refine ⟨b'.drop b1.length, ?_, h3⟩
            conv => lhs; rw [← List.take_append_drop b1.length b']
            rw [← h2]
          rw [readLoop_frame hf] at hr
          have hr3 := hop r (by simp)
          split at hr
          · exact ih n b2 c x _ _ hop' hs hc _ hr
          · split at hr
            · exact ih n b2 c x _ _ hop' hs hc _ hr
            · split at hr
              · exact ih n b2 c x _ _ hop' hs hc _ hr
              · split at hr
                · next hid _ _ h3 => exact absurd ⟨h3, by omega⟩ hr3
                · exact ih n b2 c x _ _ hop' hs hc _ hr
  obtain ⟨o, ho'⟩ := readResponse_total ⟨received, .fail e⟩
  obtain ⟨m, rfl⟩ := key rs _ _ _ _ _ _ ho hb hr o ho'
  exact ⟨m, ho'⟩

/-! ### a whole call -/

/-- The peer is a FastCGI application that computes `run`: whenever the bytes it receives are a request, it answers with
some well-formed sequence of records that carries the output of `run` for the decoded parameters and body, carries no error
output, and ends the request; it may add anything. -/
def Spec.FastCgi.Serves (respond : Bytes → Incoming) (run : List (Bytes × Bytes) → Bytes → Bytes) : Prop :=
  ∀ (b params body : Bytes) (ps : List (Bytes × Bytes)), Frames (request params body) b → Pairs ps params →
    ∃ (rs rest : List Record) (content ans tail : Bytes) (e : Ending), respond b = ⟨ans ++ tail, e⟩ ∧
      Frames (rs ++ ⟨3, 1, content⟩ :: rest) ans ∧ Open rs ∧ carried 6 1 rs = run ps body ∧ carried 7 1 rs = []

/-- **C50 (body).** The body of an HTTP answer is what follows its first empty line (CRLF). -/
theorem C50_body (head body : Str)
    (h : ∀ a b, head ++ ['\r', '\n', '\r', '\n'] ++ body = a ++ ['\r', '\n', '\r', '\n'] ++ b → head.length ≤ a.length) :
    httpBody (head ++ ['\r', '\n', '\r', '\n'] ++ body) = body := by
  unfold httpBody
  rw [(splitOnce_eq_some (by decide)).2 ⟨rfl, h⟩]

/-- **C50 (body, line feeds).** In an answer whose lines end in line feeds only, it is what follows the first empty line; in an
answer without an empty line it is everything. -/
theorem C50_body_other (s : Str) (hcr : ¬ ['\r', '\n', '\r', '\n'] <:+: s) :
    (∀ head body, s = head ++ ['\n', '\n'] ++ body →
      (∀ a b, s = a ++ ['\n', '\n'] ++ b → head.length ≤ a.length) → httpBody s = body) ∧
    (¬ ['\n', '\n'] <:+: s → httpBody s = s) := by
  constructor
  · rintro head body rfl h
    unfold httpBody
    rw [(splitOnce_eq_none (by decide)).2 hcr]
    simp only
    rw [(splitOnce_eq_some (by decide)).2 ⟨rfl, h⟩]
  · intro h
    unfold httpBody
    rw [(splitOnce_eq_none (by decide)).2 hcr]
    simp only
    rw [(splitOnce_eq_none (by decide)).2 h]

/-- Three answers. -/
example : httpBody ['a', '\n', '\n', 'b', '\n', '\n', 'c'] = ['b', '\n', '\n', 'c'] ∧
    httpBody ['a', '\r', '\n', '\r', '\n', 'b', '\n', '\n', 'c'] = ['b', '\n', '\n', 'c'] ∧ httpBody ['a', '\n', 'b'] = ['a', '\n', 'b'] := by
  decide

/-- **C50 (whole call).** When the endpoint is acceptable, the connection works and the peer is any FastCGI application
computing `run`, a call whose payload fits is answered with the JSON value in the output `run` gives for exactly the
parameters and the payload of the call. -/
theorem C50_call (env : Env) (f : Fpm) (c : ObjCall) (bridge : Str) (run : List (Bytes × Bytes) → Bytes → Bytes) (v : Value)
    (hbr : f.bridgePath c.file = .ok bridge) (hex : f.exists_ bridge = true) (hend : endpointOk f c.fpm = true)
    (hcon : f.connect (trim c.fpm) = none) (hwr : f.writeFail = fun _ => none) (hfl : f.flushFail = none)
    (hsmall : (utf8 (env.jsonShow (payload c))).length ≤ 65535) (hpath : (utf8 bridge).length ≤ 32000)
    (hserve : Serves f.respond run) (hlossy : f.lossy [] = [])
    (hans : env.jsonParse (trim (httpBody (f.lossy (run
      ((paramsFor (utf8 (env.jsonShow (payload c))) bridge).map (fun p => (utf8 p.1, utf8 p.2)))
      (utf8 (env.jsonShow (payload c))))))) = some v)
    (hv : (v.get? c!"__neutralts_obj_error").bind Value.asStr? = none) :
    execPhp env f c = some (.ok v) := by
  generalize hbody : utf8 (env.jsonShow (payload c)) = body at *
  obtain ⟨w, hw⟩ := C51_partial body bridge hsmall hpath
  obtain ⟨params, hf, hp, _⟩ := C50_request _ _ _ _ _ hw
  obtain ⟨rs, rest, content, ans, tail, e, hresp, hfr, hop, h6, h7⟩ := hserve _ _ _ _ hf hp
  have hread := C50_response rs rest content ans tail e hop hfr
  unfold execPhp
  simp only [bind, Except.bind, hbr, hex, hend, hcon, hwr, hfl, hbody, hw, mapErr, if_true]
  rw [hresp, hread, h6, h7]
  simp only [Option.map_some, hlossy]
  have ht : trim ([] : Str) = [] := rfl
  rw [ht, hans]
  simp only [List.isEmpty_nil, Bool.not_true, Bool.false_eq_true, if_false]
  rw [hv]

theorem execPhp_total (env : Env) (f : Fpm) (c : ObjCall) : ∃ r, execPhp env f c = some r := by
  unfold execPhp
  dsimp only
  split
  · exact ⟨_, rfl⟩
  · next w _ =>
    obtain ⟨x, hx⟩ := readResponse_total (f.respond w.sent)
    rw [hx]
    exact ⟨_, rfl⟩

/-! ### examples -/

/-- A frame for the examples. -/
def exFrame (t : UInt8) (c : Bytes) : Bytes := [1, t, 0, 1, 0, UInt8.ofNat c.length, 1, 0] ++ c ++ [0]

/-- An environment that understands decimal numbers as JSON. -/
def exEnv : Env := { Sample.env with
  jsonParse := fun s => (parseNat1 s).map (fun n => .num (.int n))
  jsonShow := fun _ => c!"{}" }

/-- A peer that answers with these bytes and closes the connection. -/
def exFpm (ans : Bytes) : Fpm where
  bridgePath := fun _ => .ok c!"/b.php"
  exists_ := fun _ => true
  writeBridge := fun _ => none
  resolves := fun _ => true
  connect := fun _ => none
  writeFail := fun _ => none
  flushFail := none
  respond := fun _ => ⟨ans, .eof⟩
  lossy := fun b => b.map (fun x => Char.ofNat x.toNat)

/-- A call. -/
def exCall : ObjCall := ⟨false, c!"/x.php", .null, c!"main", none, none, none, c!"unix:/s"⟩

/-- The number in the result. -/
def exNum : Option (Except Str Value) → Option Int
  | some (.ok (.num (.int n))) => some n
  | _ => none

/-- Two records of output and the end of the request. -/
def exAnswer : Bytes := exFrame 6 (utf8 ['\n', '\n', '1', '2']) ++ exFrame 6 (utf8 c!"3") ++ exFrame 3 [0, 0, 0, 0, 0, 0, 0, 0]

/-- **C56 (refuted).** The answer 123, sent in two records, is received as 12 when PHP dies between them: no error. -/
theorem C56_refuted : exNum (execPhp exEnv (exFpm exAnswer) exCall) = some 123 ∧
    exNum (execPhp exEnv (exFpm (exAnswer.take 13)) exCall) = some 12 := by decide +kernel

theorem framed_ex (t : UInt8) (c : Bytes) (h : c.length < 256) : Framed ⟨t, 1, c⟩ (exFrame t c) :=
  ⟨0, 0, 1, 0, UInt8.ofNat c.length, 1, [0], rfl, rfl, by simp; omega, rfl⟩

/-- The answer of the examples meets the hypotheses of `C50_response`, `C50_call` and `C56_partial`. -/
example : Frames ([⟨6, 1, utf8 ['\n', '\n', '1', '2']⟩, ⟨6, 1, utf8 c!"3"⟩] ++ ⟨3, 1, [0, 0, 0, 0, 0, 0, 0, 0]⟩ :: []) exAnswer ∧
    Open [⟨6, 1, utf8 ['\n', '\n', '1', '2']⟩, ⟨6, 1, utf8 c!"3"⟩] := by
  refine ⟨⟨_, _, by unfold exAnswer; rw [List.append_assoc], framed_ex _ _ (by decide), _, _, rfl, framed_ex _ _ (by decide),
    _, [], by rw [List.append_nil], framed_ex _ _ (by decide), rfl⟩, ?_⟩
  intro r hr
  simp only [List.mem_cons, List.not_mem_nil, or_false] at hr
  rcases hr with rfl | rfl <;> simp

example : Serves (exFpm exAnswer).respond (fun _ _ => utf8 ['\n', '\n', '1', '2', '3']) := by
  intro b params body ps _ _
  refine ⟨[⟨6, 1, utf8 ['\n', '\n', '1', '2']⟩, ⟨6, 1, utf8 c!"3"⟩], [], [0, 0, 0, 0, 0, 0, 0, 0], exAnswer, [], .eof,
    by simp [exFpm], ?_, ?_, rfl, rfl⟩
  · exact ⟨_, _, by unfold exAnswer; rw [List.append_assoc], framed_ex _ _ (by decide), _, _, rfl, framed_ex _ _ (by decide),
      _, [], by rw [List.append_nil], framed_ex _ _ (by decide), rfl⟩
  · intro r hr
    simp only [List.mem_cons, List.not_mem_nil, or_false] at hr
    rcases hr with rfl | rfl <;> simp

/-- A request that is sent (`C50_request`, `C51_partial`). -/
example : (match sendRequest (fun _ => none) none (utf8 c!"{}") c!"/b.php" with | .ok w => some w.sent.length | .error _ => none) =
    some 344 := by decide +kernel

/-- A payload that is refused (`C51_refuted`). -/
example : ∃ e, sendRequest (fun _ => none) none (List.replicate 65536 0) c!"/b.php" = .error e :=
  C51_refuted _ _ _ _ (by rw [List.length_replicate]; decide)

end Nts
