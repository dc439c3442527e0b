import Verif.Spec.ChunkWatcher

/-!
# Model of the watcher for printed chunks

`tasks/print_chunk_watcher.py`. Simplifications: lines end with a line feed or a carriage return only; nothing else reads the
standard input; `ctx.run` is an event.
-/

namespace Mflt.ChunkWatcher

open Spec.ChunkWatcher

/-- `PrintChunkWatcher`, print_chunk_watcher.py:21-24, and the standard input. -/
structure Watcher where
  idx : Nat
  stdin : Text

/-- `find`. -/
def find (w : Text) : Text → Option Nat
  | [] => if w.isEmpty then some 0 else none
  | c :: s => if w.isPrefixOf (c :: s) then some 0 else (find w s).map fun n => n + 1

/-- `splitlines`. -/
def splitLines (cur : Text) : Text → List Text
  | [] => if cur = [] then [] else [cur]
  | c :: s => if c = '\n' ∨ c = '\r' then cur :: splitLines [] s else splitLines (cur ++ [c]) s

/-- The script, print_chunk_watcher.py:54-58. -/
def script (cmd : Text) : Text := (splitLines [] cmd).flatMap fun l => if l.length = 0 then [] else l ++ ['\n']

/-- The answer, print_chunk_watcher.py:64-65. -/
def isYes (stdin : Text) : Bool :=
  match stdin with
  | [] => false
  | c :: _ => c == 'y' || c == 'Y'

/-- `submit`, print_chunk_watcher.py:26-71. `stream`: all that was read so far. -/
def submit (w : Watcher) (stream : Text) : Watcher × Option Ask :=
  let search := stream.drop w.idx
  match find "echo \\".toList search, find "print_chunk done".toList search with
  | some a, some b =>
    let w := { w with idx := stream.length }
    let cmd := (search.take b).drop a
    if (find "<YOUR PROJECT KEY HERE>".toList cmd).isSome then (w, none)
    else ({ w with stdin := w.stdin.drop 1 }, some ⟨script cmd, isYes w.stdin⟩)
  | _, _ => (w, none)

/-- All reads, one after the other. -/
def watch : Watcher → Text → List Text → List Ask
  | _, _, [] => []
  | w, stream, r :: l => (submit w (stream ++ r)).2.toList ++ watch (submit w (stream ++ r)).1 (stream ++ r) l

/-- From the start. -/
def run (stdin : Text) (reads : List Text) : List Ask := watch ⟨0, stdin⟩ [] reads

end Mflt.ChunkWatcher
