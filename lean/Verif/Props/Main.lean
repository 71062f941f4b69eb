import Verif.Spec.Main
import Verif.Lemmas.Main
import Verif.Props.Args
import Verif.Props.Universe
/-!
# C82: the status of the process says how the program ended
-/
set_option autoImplicit false
namespace PySOM.Main
open PySOM.Str Args Args.Spec

attribute [local irreducible] Boot.boot pathSplit Args.handleArguments

variable {V : Type} (W : World V)

/-- C82: both entry points, that of Python and that of RPython, give the same status. -/
theorem C82_same (args : List Str) : W.status args = W.entryPoint args := by
  have hm : W.main args ≠ .normal := by
    unfold World.main
    split
    · exact fun h => nomatch h
    · next e h => exact h
  unfold World.status World.entryPoint
  cases h : W.main args with
  | normal => exact absurd h hm
  | _ => rfl

theorem status_interpret (args : List Str) : W.status args = statusOf (W.interpret args) := by
  unfold World.status World.main
  cases W.interpret args <;> rfl

theorem statusOf_start {e : Boot.Err} (h : e ≠ .exit 0) : statusOf (ofStart e) ≠ 0 := by
  cases e with
  | exit c => exact fun hc => h (by rw [show c = 0 from Int.ofNat_inj.1 hc])
  | _ => exact by decide

/-- C82: a wish for help, and a class path option without a path: status 0. -/
theorem C82_usage (os : List Opt) : (∀ (w : Str) (more : List Str), w ∈ helpWords → W.status (os.flatMap Opt.words ++ w :: more) = 0) ∧ W.status (os.flatMap Opt.words ++ ["-cp".toList]) = 0 := by
  obtain ⟨h1, h2⟩ := C59_usage W.sep W.pathsep os
  refine ⟨fun w more hw => ?_, ?_⟩
  · rw [status_interpret]
    unfold World.interpret
    rw [h1 w more hw]
    rfl
  · rw [status_interpret]
    unfold World.interpret
    rw [h2]
    rfl

theorem interpret_program (os : List Opt) (prog : Str) (args : List Str) (h : prog ∉ optionWords) : W.interpret (os.flatMap Opt.words ++ prog :: args) =
    match Boot.boot (W.env (searchedFor W.sep W.pathsep os prog)) W.depth ⟨[], []⟩ with
    | (.error e, _) => ofStart e
    | (.ok _, u) => W.run u ((pathSplit W.sep prog).2.1 :: args) := by
  unfold World.interpret
  rw [C59_program W.sep W.pathsep false os prog args h]
  rfl

theorem interpret_shell (os : List Opt) : W.interpret (os.flatMap Opt.words) =
    match Boot.boot (W.env (searched W.pathsep os)) W.depth ⟨[], []⟩ with
    | (.error e, _) => ofStart e
    | (.ok _, u) => ofShell (Shell.start W.decode W.eval u 0 W.nil W.input).1 := by
  unfold World.interpret
  rw [C59_shell W.sep W.pathsep false os]
  rfl

/-- C82: a program that runs: the status is 0 when it comes to its end, the number given to `exit:` when it does this, and 1 when an error ends it.  It runs with its name and its arguments, in the VM started from the class path. -/
theorem C82_program (os : List Opt) (prog : Str) (args : List Str) (h : prog ∉ optionWords) {u : Boot.U} (hs : W.Starts (searchedFor W.sep W.pathsep os prog) u) :
    W.status (os.flatMap Opt.words ++ prog :: args) = statusOf (W.run u ((pathSplit W.sep prog).2.1 :: args)) := by
  obtain ⟨s, hs⟩ := hs
  rw [status_interpret, interpret_program W os prog args h, hs]

/-- C82: the shell: 0 when it is left, the number given to `exit:`, and 1 when an error ends it. -/
theorem C82_shell (os : List Opt) {u : Boot.U} (hs : W.Starts (searched W.pathsep os) u) :
    W.status (os.flatMap Opt.words) = match (Shell.start W.decode W.eval u 0 W.nil W.input).1 with | .answer _ => 0 | .exit c => c | .raised => 1 := by
  obtain ⟨s, hs⟩ := hs
  rw [status_interpret, interpret_shell W os, hs]
  dsimp only
  cases (Shell.start W.decode W.eval u 0 W.nil W.input).1 <;> rfl

/-- C82: when the VM does not start, the status is not 0, whatever the program. -/
theorem C82_not_started (os : List Opt) : (∀ (prog : Str) (args : List Str), prog ∉ optionWords → (∀ u, ¬ W.Starts (searchedFor W.sep W.pathsep os prog) u) → W.status (os.flatMap Opt.words ++ prog :: args) ≠ 0) ∧
    ((∀ u, ¬ W.Starts (searched W.pathsep os) u) → W.status (os.flatMap Opt.words) ≠ 0) := by
  constructor
  · intro prog args h hs
    rw [status_interpret, interpret_program W os prog args h]
    have he := Boot.boot_exit (W.env (searchedFor W.sep W.pathsep os prog)) W.depth
    rcases hb : Boot.boot (W.env (searchedFor W.sep W.pathsep os prog)) W.depth ⟨[], []⟩ with ⟨r, u⟩
    cases r with
    | ok s => exact absurd ⟨s, hb⟩ (hs u)
    | error e => rw [hb] at he; exact statusOf_start fun h => he (by rw [h])
  · intro hs
    rw [status_interpret, interpret_shell W os]
    have he := Boot.boot_exit (W.env (searched W.pathsep os)) W.depth
    rcases hb : Boot.boot (W.env (searched W.pathsep os)) W.depth ⟨[], []⟩ with ⟨r, u⟩
    cases r with
    | ok s => exact absurd ⟨s, hb⟩ (hs u)
    | error e => rw [hb] at he; exact statusOf_start fun h => he (by rw [h])

theorem source_none {paths : List Str} {n : Boot.Name} (h : ∀ d ∈ paths, W.files d n = none) : Boot.source (W.env paths) n = none := by
  refine List.findSome?_eq_none_iff.2 fun p hp => ?_
  have hp' : p < paths.length := List.mem_range.1 hp
  show (paths[p]?).bind _ = none
  rw [List.getElem?_eq_getElem hp']
  exact h _ (List.getElem_mem hp')

theorem findSome_congr {α β : Type} {f g : α → Option β} : ∀ (l : List α), (∀ x ∈ l, f x = g x) → l.findSome? f = l.findSome? g
  | [], _ => rfl
  | x :: l, h => by
    rw [List.findSome?_cons, List.findSome?_cons, h x (List.mem_cons_self ..), findSome_congr l fun y hy => h y (List.mem_cons_of_mem _ hy)]

/-- C82: a class comes from the first of the directories that has it. -/
theorem C82_class_path (paths : List Str) (n : Boot.Name) : Boot.source (W.env paths) n = paths.findSome? fun d => W.files d n := by
  have h : ∀ (l : List Str) (f : Nat → Str), (∀ i (hi : i < l.length), f i = l[i]) → (List.range l.length).findSome? (fun i => W.files (f i) n) = l.findSome? fun d => W.files d n := by
    intro l f hf
    have e : l = (List.range l.length).map f := List.ext_getElem (by simp) fun i h1 h2 => by simp [hf i h1]
    conv => rhs; rw [e]
    rw [List.findSome?_map]
    rfl
  rw [← h paths (fun i => paths.getD i []) fun i hi => by simp [List.getD, List.getElem?_eq_getElem hi]]
  show (List.range paths.length).findSome? (fun p => (paths[p]?).bind fun d => W.files d n) = _
  refine findSome_congr _ fun i hi => ?_
  have hi' : i < paths.length := List.mem_range.1 hi
  simp [List.getD, List.getElem?_eq_getElem hi']

/-- C82: the VM does not start when one of its classes is in none of the directories; without the class Object, which is loaded first, the status is 200. -/
theorem C82_missing {paths : List Str} {n : String} (hn : n ∈ vmClasses) (h : ∀ d ∈ paths, W.files d n.toList = none) : ∀ u, ¬ W.Starts paths u := by
  rintro u ⟨s, hs⟩
  have hm : ∀ n ∈ vmClasses, ∃ x ∈ Boot.sysIds, x.1 = n.toList := by decide +kernel
  obtain ⟨x, hx, e⟩ := hm n hn
  exact Boot.boot_sources (env := W.env paths) rfl hs x hx (e ▸ source_none W h)

theorem C82_object (os : List Opt) (prog : Str) (args : List Str) (h : prog ∉ optionWords) (hf : ∀ d ∈ searchedFor W.sep W.pathsep os prog, W.files d "Object".toList = none) :
    W.status (os.flatMap Opt.words ++ prog :: args) = 200 := by
  rw [status_interpret, interpret_program W os prog args h]
  have he := Boot.boot_object (env := W.env (searchedFor W.sep W.pathsep os prog)) rfl W.depth (source_none W hf)
  rcases hb : Boot.boot (W.env (searchedFor W.sep W.pathsep os prog)) W.depth ⟨[], []⟩ with ⟨r, u⟩
  rw [hb] at he
  cases he
  rfl

/-! ## A world -/

/-- The files of `Boot.Demo` in the directory `lib`; programs called `Bad` fail, and others exit with the number of their arguments. -/
def demo : World Nat where
  sep := '/'
  pathsep := ':'
  files := fun d n => if d = "lib".toList then List.lookup n Boot.Demo.files else none
  known := Boot.Demo.env.known
  depth := 5
  decode := fun bs => some (bs.map fun b => Char.ofNat b.toNat)
  input := []
  nil := 0
  eval := fun u _ _ => (u, .noClass)
  run := fun _ as => if as.head? = some "Bad".toList then .fails else if as.length = 1 then .normal else .exit (as.length - 1 : Nat)

example : demo.status ["-cp".toList, "lib".toList, "Point".toList, "a".toList, "b".toList, "c".toList] = 3 ∧ demo.status ["-cp".toList, "x:lib".toList, "Point".toList] = 0 ∧
    demo.status ["-cp".toList, "lib".toList, "Bad".toList] = 1 ∧ demo.status ["Point".toList] = 200 ∧ demo.status ["-d".toList, "-h".toList] = 0 := by decide +kernel

/-- The premises of `C82_program` and `C82_missing` hold there. -/
example : (∃ u, demo.Starts (searchedFor '/' ':' [.cp "lib".toList] "Point".toList) u) ∧ ∀ u, ¬ demo.Starts (searchedFor '/' ':' [.dump] "Point".toList) u := by
  refine ⟨⟨(Boot.boot (demo.env (searchedFor '/' ':' [.cp "lib".toList] "Point".toList)) 5 ⟨[], []⟩).2, Boot.sys0, ?_⟩, C82_missing demo (n := "Array") (by decide) (by decide +kernel)⟩
  exact Boot.Demo.gives_eq (by decide +kernel)

end PySOM.Main
