import Verif.Spec.FileRead
/-!
# C83: `loadFile:` answers what is in the file

What does not hold: when reading fails after a part was read, this part is answered as if it were the whole file; and bytes that are no text end the program.
-/
set_option autoImplicit false
namespace PySOM.FileRead
open PySOM.Str

variable {σ : Type} {read : Read σ} {holds : σ → Str → Prop}

theorem nextSize_le {n : Nat} (h : ∃ k, k ≤ 9 ∧ n = 8192 * 2 ^ k) : ∃ k, k ≤ 9 ∧ nextSize n = 8192 * 2 ^ k := by
  obtain ⟨k, hk, rfl⟩ := h
  unfold nextSize
  split
  · next hlt =>
    refine ⟨k + 1, ?_, by rw [Nat.pow_succ]; omega⟩
    rcases Nat.lt_or_ge k 9 with h | h
    · omega
    · have : k = 9 := by omega
      subst this
      exact absurd hlt (by decide)
  · exact ⟨k, hk, rfl⟩

theorem size_bounds {n : Nat} (h : ∃ k, k ≤ 9 ∧ n = 8192 * 2 ^ k) : 8192 ≤ n ∧ n ≤ 4194304 := by
  obtain ⟨k, hk, rfl⟩ := h
  have h1 : 1 ≤ 2 ^ k := Nat.one_le_two_pow
  have h2 : 2 ^ k ≤ 2 ^ 9 := Nat.pow_le_pow_right (by decide) hk
  omega

/-- The loop ends, whatever the parts. -/
theorem readLoop_parts (hf : MayFail read holds) : ∀ (m : Nat) (s : σ) (t : Str), t.length ≤ m → holds s t → ∀ (n : Nat) (acc : List Str), (∃ k, k ≤ 9 ∧ n = 8192 * 2 ^ k) →
    ∃ r, readLoop read s n acc = some r ∧ ((∃ (l : List Str) (rest : Str), r = .ok l ∧ l.flatten ++ rest = acc.flatten ++ t) ∨ (r = .error .os ∧ acc = []) ∨ r = .error .other) := by
  intro m
  induction m with
  | zero =>
    intro s t hm ht n acc hn
    rw [readLoop]
    rcases hf s t ht n (size_bounds hn).1 (size_bounds hn).2 with ⟨part, rest, s', hr, he, -, -, -⟩ | hr | hr
    · rw [hr]
      have ht0 : t = [] := List.length_eq_zero_iff.1 (Nat.le_zero.1 hm)
      have hp : part = [] := by
        rw [ht0] at he
        exact (List.append_eq_nil_iff.1 he.symm).1
      exact ⟨.ok acc, by simp [hp], .inl ⟨acc, [], rfl, by rw [ht0]⟩⟩
    · rcases hx : read s n with ⟨x, s'⟩
      rw [hx] at hr
      cases hr
      by_cases ha : acc = []
      · exact ⟨.error .os, by simp [ha], .inr (.inl ⟨rfl, ha⟩)⟩
      · exact ⟨.ok acc, by simp [ha], .inl ⟨acc, t, rfl, rfl⟩⟩
    · rcases hx : read s n with ⟨x, s'⟩
      rw [hx] at hr
      cases hr
      exact ⟨.error .other, rfl, .inr (.inr rfl)⟩
  | succ m ih =>
    intro s t hm ht n acc hn
    rw [readLoop]
    rcases hf s t ht n (size_bounds hn).1 (size_bounds hn).2 with ⟨part, rest, s', hr, he, -, h0, hh⟩ | hr | hr
    · rw [hr]
      by_cases hp : part = []
      · exact ⟨.ok acc, by simp [hp], .inl ⟨acc, [], rfl, by rw [h0 hp]⟩⟩
      · have hl : rest.length ≤ m := by
          have := List.length_pos_iff.2 hp
          rw [he, List.length_append] at hm
          omega
        obtain ⟨r, h1, h2⟩ := ih s' rest hl hh (nextSize n) (acc ++ [part]) (nextSize_le hn)
        refine ⟨r, by simp [hp, h1], ?_⟩
        rcases h2 with ⟨l, x, e1, e2⟩ | ⟨-, h⟩ | h
        · exact .inl ⟨l, x, e1, by rw [e2, he]; simp⟩
        · exact absurd h (by simp)
        · exact .inr (.inr h)
    · rcases hx : read s n with ⟨x, s'⟩
      rw [hx] at hr
      cases hr
      by_cases ha : acc = []
      · exact ⟨.error .os, by simp [ha], .inr (.inl ⟨rfl, ha⟩)⟩
      · exact ⟨.ok acc, by simp [ha], .inl ⟨acc, t, rfl, rfl⟩⟩
    · rcases hx : read s n with ⟨x, s'⟩
      rw [hx] at hr
      cases hr
      exact ⟨.error .other, rfl, .inr (.inr rfl)⟩

/-- Without errors the whole text is read. -/
theorem readLoop_gives (hf : Gives read holds) : ∀ (m : Nat) (s : σ) (t : Str), t.length ≤ m → holds s t → ∀ (n : Nat) (acc : List Str), (∃ k, k ≤ 9 ∧ n = 8192 * 2 ^ k) →
    ∃ l : List Str, readLoop read s n acc = some (.ok l) ∧ l.flatten = acc.flatten ++ t := by
  intro m
  induction m with
  | zero =>
    intro s t hm ht n acc hn
    obtain ⟨part, rest, s', hr, he, -, -, -⟩ := hf s t ht n (size_bounds hn).1 (size_bounds hn).2
    have ht0 : t = [] := List.length_eq_zero_iff.1 (Nat.le_zero.1 hm)
    have hp : part = [] := by
      rw [ht0] at he
      exact (List.append_eq_nil_iff.1 he.symm).1
    rw [readLoop, hr]
    exact ⟨acc, by simp [hp], by simp [ht0]⟩
  | succ m ih =>
    intro s t hm ht n acc hn
    obtain ⟨part, rest, s', hr, he, -, h0, hh⟩ := hf s t ht n (size_bounds hn).1 (size_bounds hn).2
    rw [readLoop, hr]
    by_cases hp : part = []
    · exact ⟨acc, by simp [hp], by simp [h0 hp]⟩
    · have hl : rest.length ≤ m := by
        have := List.length_pos_iff.2 hp
        rw [he, List.length_append] at hm
        omega
      obtain ⟨l, h1, h2⟩ := ih s' rest hl hh (nextSize n) (acc ++ [part]) (nextSize_le hn)
      exact ⟨l, by simp [hp, h1], by rw [h2, he]; simp⟩

/-- C83: `loadFile:` answers the contents of the file, however the system divides them among the reads, and closes the file once. -/
theorem C83_contents {openFile : Str → Except IoErr σ} {name : Str} {s : σ} {t : Str} (ho : openFile name = .ok s) (hf : Gives read holds) (ht : holds s t) : loadFile openFile read name = some (.text t, 1) := by
  obtain ⟨l, h1, h2⟩ := readLoop_gives hf t.length s t (Nat.le_refl _) ht 8192 [] ⟨0, by decide, rfl⟩
  unfold loadFile readAll
  rw [ho]
  dsimp only
  rw [h1]
  simp [Except.map, h2]

/-- C83: a file that the system does not open: `nil`, and nothing is closed. -/
theorem C83_missing {openFile : Str → Except IoErr σ} {name : Str} (ho : openFile name = .error .os) : loadFile openFile read name = some (.nil, 0) := by
  unfold loadFile
  rw [ho]

/-- C83: a file of which already the first read fails: `nil`. -/
theorem C83_unreadable {openFile : Str → Except IoErr σ} {name : Str} {s : σ} (ho : openFile name = .ok s) (hr : (read s 8192).1 = .error .os) : loadFile openFile read name = some (.nil, 1) := by
  unfold loadFile readAll
  rw [ho]
  dsimp only
  rw [readLoop]
  rcases hx : read s 8192 with ⟨x, s'⟩
  rw [hx] at hr
  cases hr
  rfl

/-- C83, partial: when reads may fail, `loadFile:` ends, closes the file once, and answers `nil`, or a beginning of the contents, or an exception leaves it.  Missing: that the beginning is the whole, and that no exception leaves it. -/
theorem C83_failing_partial {openFile : Str → Except IoErr σ} {name : Str} {s : σ} {t : Str} (ho : openFile name = .ok s) (hf : MayFail read holds) (ht : holds s t) :
    ∃ a, loadFile openFile read name = some (a, 1) ∧ (a = .nil ∨ a = .raises ∨ ∃ x rest, a = .text x ∧ t = x ++ rest) := by
  obtain ⟨r, h1, h2⟩ := readLoop_parts hf t.length s t (Nat.le_refl _) ht 8192 [] ⟨0, by decide, rfl⟩
  unfold loadFile readAll
  rw [ho]
  dsimp only
  rw [h1]
  rcases h2 with ⟨l, rest, e, h⟩ | ⟨e, -⟩ | e
  · subst e
    exact ⟨.text l.flatten, rfl, .inr (.inr ⟨_, rest, rfl, by simpa using h.symm⟩)⟩
  · subst e
    exact ⟨.nil, rfl, .inl rfl⟩
  · subst e
    exact ⟨.raises, rfl, .inr (.inl rfl)⟩

/-! ## Files -/

/-- A file whose reads give at most three characters; the state is what is left, and what happens at the end. -/
def slow : Read (Str × Option IoErr) := fun s n =>
  match s.1, s.2 with
  | [], some e => (.error e, s)
  | t, _ => (.ok (t.take (min n 3)), (t.drop (min n 3), s.2))

theorem slow_gives : Gives slow (fun s t => s = (t, none)) := by
  rintro s t rfl n h1 -
  have hn : min n 3 = 3 := by omega
  refine ⟨t.take 3, t.drop 3, (t.drop 3, none), ?_, (List.take_append_drop 3 t).symm, ?_, ?_, rfl⟩
  · unfold slow
    cases t <;> simp [hn]
  · rw [List.length_take]; omega
  · cases t with
    | nil => exact fun _ => rfl
    | cons _ _ => exact fun h => nomatch h

/-- A text that is read in four parts. -/
example : loadFile (fun _ => .ok ("'hello sun'".toList, none)) slow "a.txt".toList = some (.text "'hello sun'".toList, 1) :=
  C83_contents rfl slow_gives rfl

/-- The premises of `C83_failing_partial`, for a file that fails at its end. -/
example (e : IoErr) : MayFail slow (fun s t => s = (t, some e)) := by
  rintro s t rfl n h1 -
  have hn : min n 3 = 3 := by omega
  cases t with
  | nil => exact .inr (by cases e <;> simp [slow])
  | cons c t =>
    refine .inl ⟨(c :: t).take 3, (c :: t).drop 3, ((c :: t).drop 3, some e), ?_, (List.take_append_drop 3 _).symm, ?_, fun h => (by simp at h), rfl⟩
    · simp [slow, hn]
    · rw [List.length_take]; omega

/-- C83 violated: reading fails after a part was read, and the part is answered as if it were all. -/
theorem C83_violated_truncated : loadFile (fun _ => .ok ("abc".toList, some .os)) slow "a.txt".toList = some (.text "abc".toList, 1) := by
  unfold loadFile readAll
  dsimp only
  rw [readLoop, show slow ("abc".toList, some .os) 8192 = (.ok "abc".toList, ([], some .os)) from rfl]
  dsimp only
  rw [if_neg (by decide), readLoop, show slow ([], some .os) (nextSize 8192) = (.error .os, ([], some .os)) from rfl]
  rfl

/-- C83 violated: bytes that are no text, here after three characters: the exception leaves `loadFile:`. -/
theorem C83_violated_decode : loadFile (fun _ => .ok ("abc".toList, some .other)) slow "a.txt".toList = some (.raises, 1) := by
  unfold loadFile readAll
  dsimp only
  rw [readLoop, show slow ("abc".toList, some .other) 8192 = (.ok "abc".toList, ([], some .other)) from rfl]
  dsimp only
  rw [if_neg (by decide), readLoop, show slow ([], some .other) (nextSize 8192) = (.error .other, ([], some .other)) from rfl]
  rfl

end PySOM.FileRead
