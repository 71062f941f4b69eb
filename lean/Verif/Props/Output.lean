import Verif.Spec.Output
/-!
# C85: what a program prints arrives

What does not hold: when the system takes only a part of the bytes, the rest is lost, without an error.
-/
set_option autoImplicit false
namespace PySOM.Output
open PySOM.Str

theorem encode_append (s t : Str) : encodeToBytes (s ++ t) = encodeToBytes s ++ encodeToBytes t := by
  unfold encodeToBytes
  rw [List.flatMap_append]

/-- C85: the bytes of a text, read as UTF-8, are the text. -/
theorem C85_encoding (s : Str) : (encodeToBytes s).toByteArray.utf8Decode? = some s.toArray := List.utf8Decode?_utf8Encode

/-- So different texts have different bytes. -/
theorem C85_different {s t : Str} (h : encodeToBytes s = encodeToBytes t) : s = t := by
  have h1 := C85_encoding s
  rw [h, C85_encoding t] at h1
  simpa using (Option.some.inj h1).symm

theorem file_add (k : Sink) (fd fd' : Fd) (bs : List UInt8) : (k.add fd bs).file fd' = k.file fd' ++ if fd = fd' then bs else [] := by
  cases fd <;> cases fd' <;> simp [Sink.add, Sink.file]

/-- Each message is one write, of the bytes of its text, to the file it is meant for. -/
theorem send_write (m : Msg) (k : Sink) : ∃ fd t, send m k = ((osWrite fd (encodeToBytes t) k).1.isSome, (osWrite fd (encodeToBytes t) k).2) ∧ ∀ fd', m.text fd' = if fd = fd' then t else [] := by
  cases m with
  | printString t => exact ⟨.out, t, rfl, fun fd' => by cases fd' <;> rfl⟩
  | printNewline => exact ⟨.out, ['\n'], rfl, fun fd' => by cases fd' <;> rfl⟩
  | errorPrint t => exact ⟨.err, t, rfl, fun fd' => by cases fd' <;> rfl⟩
  | errorPrintln t => exact ⟨.err, t ++ ['\n'], rfl, fun fd' => by cases fd' <;> rfl⟩

/-- C85, partial: if the system takes all that is written, then after any messages each of the two files has, after what was there, the bytes of all texts printed to it, in their order, and no message raises an exception.
Missing: the same if the system takes less at a time. -/
theorem C85_arrives_partial (ms : List Msg) (k : Sink) (hk : k.will = []) : (sendAll ms k).1 = true ∧ ∀ fd, (sendAll ms k).2.file fd = k.file fd ++ encodeToBytes (printed fd ms) := by
  induction ms generalizing k with
  | nil => exact ⟨rfl, fun fd => (List.append_nil _).symm⟩
  | cons m ms ih =>
    obtain ⟨fd, t, h1, h2⟩ := send_write m k
    have hw : osWrite fd (encodeToBytes t) k = (some (encodeToBytes t).length, k.add fd (encodeToBytes t)) := by
      unfold osWrite
      rw [hk]
    rw [hw] at h1
    have hs : sendAll (m :: ms) k = sendAll ms (k.add fd (encodeToBytes t)) := by
      conv => lhs; unfold sendAll
      rw [h1]
      rfl
    rw [hs]
    obtain ⟨h3, h4⟩ := ih (k.add fd (encodeToBytes t)) (by cases fd <;> exact hk)
    refine ⟨h3, fun fd' => ?_⟩
    rw [h4, file_add, List.append_assoc, show printed fd' (m :: ms) = m.text fd' ++ printed fd' ms from rfl, encode_append, h2]
    by_cases he : fd = fd'
    · rw [if_pos he, if_pos he]
    · rw [if_neg he, if_neg he]; rfl

/-- C85: who reads the output as UTF-8 gets the texts. -/
theorem C85_read_partial (ms : List Msg) (fd : Fd) : ((sendAll ms ⟨[], [], []⟩).2.file fd).toByteArray.utf8Decode? = some (printed fd ms).toArray := by
  rw [(C85_arrives_partial ms ⟨[], [], []⟩ rfl).2 fd]
  have : Sink.file ⟨[], [], []⟩ fd = [] := by cases fd <;> rfl
  rw [this]
  exact C85_encoding _

/-- C85, partial: whatever the system takes, a message changes only the file it is meant for, and adds to it a beginning of the bytes of its text; all of them if the system takes at least so many. -/
theorem C85_write_partial (m : Msg) (k : Sink) (fd : Fd) : ∃ n, (send m k).2.file fd = k.file fd ++ (encodeToBytes (m.text fd)).take n ∧
    ((∀ x, k.will.head? = some x → ∃ j, x = some j ∧ (encodeToBytes (m.text fd)).length ≤ j) → (send m k).2.file fd = k.file fd ++ encodeToBytes (m.text fd)) := by
  obtain ⟨fd', t, h1, h2⟩ := send_write m k
  rw [h1, h2]
  dsimp only
  rcases hw : k.will with _ | ⟨_ | j, w⟩
  · refine ⟨(encodeToBytes t).length, ?_, fun _ => ?_⟩ <;> (unfold osWrite; rw [hw]; dsimp only; rw [file_add]; by_cases he : fd' = fd)
    · simp [he]
    · simp [he, encodeToBytes]
    · simp [he]
    · simp [he, encodeToBytes]
  · refine ⟨0, ?_, fun h => ?_⟩
    · unfold osWrite; rw [hw]; cases fd <;> simp [Sink.file]
    · obtain ⟨j, hj, -⟩ := h none rfl
      cases hj
  · have hf : Sink.file { k with will := w } fd = k.file fd := by cases fd <;> rfl
    refine ⟨j, ?_, fun h => ?_⟩
    · unfold osWrite; rw [hw]; dsimp only; rw [file_add, hf]
      by_cases he : fd' = fd
      · simp [he]
      · simp [he, encodeToBytes]
    · obtain ⟨j', hj, hl⟩ := h (some j) rfl
      cases hj
      unfold osWrite; rw [hw]; dsimp only; rw [file_add, hf]
      by_cases he : fd' = fd
      · simp only [he, if_true] at hl ⊢
        rw [List.take_of_length_le hl]
      · simp [he, encodeToBytes]

/-- C85: after a write that fails nothing more is printed. -/
theorem C85_fails (m : Msg) (ms : List Msg) (k : Sink) (w : List (Option Nat)) (hk : k.will = none :: w) : (sendAll (m :: ms) k).1 = false ∧ ∀ fd, (sendAll (m :: ms) k).2.file fd = k.file fd := by
  obtain ⟨fd, t, h1, -⟩ := send_write m k
  have hw : osWrite fd (encodeToBytes t) k = (none, { k with will := w }) := by
    unfold osWrite
    rw [hk]
  rw [hw] at h1
  have hs : sendAll (m :: ms) k = (false, { k with will := w }) := by
    unfold sendAll
    rw [h1]
    rfl
  rw [hs]
  exact ⟨rfl, fun fd => by cases fd <;> rfl⟩

/-- Two files, and a character of two bytes. -/
example : sendAll [.printString "aé".toList, .errorPrintln "x".toList, .printNewline] ⟨[], [], []⟩ = (true, ⟨[97, 195, 169, 10], [120, 10], []⟩) := by decide +kernel

/-- C85 violated: a pipe that has room for two bytes: the rest of the text is lost, the program goes on, and what comes next follows in the middle of a character. -/
theorem C85_violated_short : sendAll [.printString "aé".toList, .printNewline] ⟨[], [], [some 2]⟩ = (true, ⟨[97, 195, 10], [], []⟩) ∧ (List.toByteArray [97, 195, 10]).utf8Decode? = none := by
  refine ⟨by decide +kernel, ?_⟩
  decide +kernel

end PySOM.Output
