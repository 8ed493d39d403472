import Verif.Conform.Harness

/-!
# Transcribed tests of composite expectations and of `ToSatisfy`

The entries of the tables in `/repo/expectation.composite_test.go`, `expectation.not_test.go`,
`expectation.repeat_test.go` and `expectation.satisfy_test.go`, and single tests of the
latter.
-/

namespace Verif.Conform

open Verif

/-! ## `expectation.composite_test.go` -/

-- it flattens report output when there is a single child (48-55)
#guard expectNoop emptyApp (allOf [pass]) =
  expectPass
    ["✓ <always pass>"]

-- it passes when all of the child expectations pass (56-65)
#guard expectNoop emptyApp (allOf [pass, pass]) =
  expectPass
    ["✓ all of",
     "    ✓ <always pass>",
     "    ✓ <always pass>"]

-- it fails when some of the child expectations fail (66-75)
#guard expectNoop emptyApp (allOf [pass, fail]) =
  expectFail
    ["✗ all of (1 of the expectations failed)",
     "    ✓ <always pass>",
     "    ✗ <always fail>"]

-- it fails when all of the child expectations fail (76-85)
#guard expectNoop emptyApp (allOf [fail, fail]) =
  expectFail
    ["✗ all of (2 of the expectations failed)",
     "    ✗ <always fail>",
     "    ✗ <always fail>"]

-- it flattens report output when there is a single child (120-127)
#guard expectNoop emptyApp (anyOf [pass]) =
  expectPass
    ["✓ <always pass>"]

-- it passes when all of the child expectations pass (128-137)
#guard expectNoop emptyApp (anyOf [pass, pass]) =
  expectPass
    ["✓ any of",
     "    ✓ <always pass>",
     "    ✓ <always pass>"]

-- it passes when some of the child expectations fail (138-147)
#guard expectNoop emptyApp (anyOf [pass, fail]) =
  expectPass
    ["✓ any of",
     "    ✓ <always pass>",
     "    ✗ <always fail>"]

-- it fails when all of the child expectations fail (148-157)
#guard expectNoop emptyApp (anyOf [fail, fail]) =
  expectFail
    ["✗ any of (all 2 of the expectations failed)",
     "    ✗ <always fail>",
     "    ✗ <always fail>"]

-- it does not flatten report output when there is a single child (192-200)
#guard expectNoop emptyApp (noneOf [pass]) =
  expectFail
    ["✗ none of (the expectation passed unexpectedly)",
     "    ✓ <always pass>"]

-- it fails when all of the child expecations pass (201-210)
#guard expectNoop emptyApp (noneOf [pass, pass]) =
  expectFail
    ["✗ none of (2 of the expectations passed unexpectedly)",
     "    ✓ <always pass>",
     "    ✓ <always pass>"]

-- it fails when some of the child expectations pass (211-220)
#guard expectNoop emptyApp (noneOf [pass, fail]) =
  expectFail
    ["✗ none of (1 of the expectations passed unexpectedly)",
     "    ✓ <always pass>",
     "    ✗ <always fail>"]

-- passes when all of the child expectations fail (221-230)
#guard expectNoop emptyApp (noneOf [fail, fail]) =
  expectPass
    ["✓ none of",
     "    ✗ <always fail>",
     "    ✗ <always fail>"]

-- fails the test if one of its children cannot construct a predicate (97-105, 170-178, 251-259)
#guard (match (Expectation.build (scope emptyApp) (allOf [pass, failBeforeAction])).2 with
  | .error e => e = .custom "<always fail before action>"
  | .ok _ => false)
#guard (mkComposite .allOf []).isNone
#guard (match (Expectation.build (scope emptyApp) (anyOf [pass, failBeforeAction])).2 with
  | .error e => e = .custom "<always fail before action>"
  | .ok _ => false)
#guard (mkComposite .anyOf []).isNone
#guard (match (Expectation.build (scope emptyApp) (noneOf [pass, failBeforeAction])).2 with
  | .error e => e = .custom "<always fail before action>"
  | .ok _ => false)
#guard (mkComposite .noneOf []).isNone

/-- The application of `expectation.not_test.go` 26-48. -/
def notApp : App Nat (List String) :=
  mkApp [⟨"<integration>", .integration, false, [cmd "TypeA"], [evt "TypeA"]⟩]
    { stubs with
      intHandle := fun _ _ => .op (.record (msg (evt "TypeA") "A1")) fun _ => .ret none }

/-! ## `expectation.not_test.go` -/

-- it fails when the child expectation passes (67-74)
#guard expect notApp [.enableHandler "<integration>" true] (.dispatch (msg (cmd "TypeA") "A1")) (.not (.message (msg (evt "TypeA") "A1"))) =
  expectFail
    ["✗ do not record a specific 'stubs.EventStub[TypeA]' event"]

-- it passes when the child expectation fails (75-82)
#guard expect notApp [.enableHandler "<integration>" true] (.dispatch (msg (cmd "TypeA") "A1")) (.not (.message (msg (evt "TypeA") "A2"))) =
  expectPass
    ["✓ do not record a specific 'stubs.EventStub[TypeA]' event"]

#guard (match (Expectation.build (scope notApp) (.not failBeforeAction)).2 with
  | .error e => e = .custom "<always fail before action>"
  | .ok _ => false)

/-! ## `expectation.repeat_test.go` -/

-- it passes when all of the repeated expectations pass (45-65)
#guard expectNoop emptyApp (.repeatedly "<description>" 2 fun i => if i = 0 then pass else if i = 1 then pass else .nil) =
  expectPass
    ["✓ <description>"]

-- it fails when any of the repeated expectations fail (66-87)
#guard expectNoop emptyApp (.repeatedly "<description>" 2 fun i => if i = 0 then pass else if i = 1 then fail else .nil) =
  expectFail
    ["✗ <description> (1 of 2 iteration(s) failed, iteration #1 shown)",
     "    ✗ <always fail>"]

-- it fails when all of the repeated expectations fail (88-109)
#guard expectNoop emptyApp (.repeatedly "<description>" 2 fun i => if i = 0 then fail else if i = 1 then fail else .nil) =
  expectFail
    ["✗ <description> (2 of 2 iteration(s) failed, iteration #0 shown)",
     "    ✗ <always fail>"]

#guard (mkRepeatedly "" 1 fun _ => .nil).isNone
#guard (mkRepeatedly "<description>" 0 fun _ => .nil).isNone
#guard (mkRepeatedly "<description>" (-1) fun _ => .nil).isNone

/-! ## `expectation.satisfy_test.go` -/

/-- The stack of a call at this line of the function (`expectation.satisfy_test.go` 34-219). -/
def at_ (line : Nat) : StackFrame :=
  { func := "testkit_test.init.func1", file := "/repo/expectation.satisfy_test.go", line := line, pc := line }

/-- A line of the helper function. -/
def in_ (line : Nat) : StackFrame :=
  { func := "testkit_test.init.func1.1", file := "/repo/expectation.satisfy_test.go", line := line, pc := line }

def done_ : StackFrame :=
  { func := "github.com/dogmatiq/testkit.(*satisfyPredicate).Done", file := "/repo/expectation.satisfy.go",
    line := 93, pc := 1093 }

def onLine (line : Nat) : CallStack := ⟨at_ line, [done_]⟩
def inHelper (line outer : Nat) : CallStack := ⟨in_ line, [at_ outer, done_]⟩

/-- `Expect(noop, ToSatisfy("<description>", p))`. -/
def satisfying (p : SProg) : Option Verdict := expectNoop emptyApp (.satisfy "<description>" fun _ => p)

-- it passes when the expectation does nothing (49-56)
#guard satisfying (.ret) =
  expectPass
    ["✓ <description>"]

-- it fails if Fail() is called (57-69)
#guard satisfying (.do_ .fail .ret (onLine 60)) =
  expectFail
    ["✗ <description> (the expectation failed)",
     "",
     "  | EXPLANATION",
     "  |     Fail() called at expectation.satisfy_test.go:60"]

-- it passes if the expectation is skipped (70-82)
#guard satisfying (.do_ .skipNow .ret (onLine 73)) =
  expectPass
    ["✓ <description> (the expectation was skipped)",
     "",
     "  | EXPLANATION",
     "  |     SkipNow() called at expectation.satisfy_test.go:73"]

-- it includes Log() messages in the test report (83-95)
#guard satisfying (.do_ (.log "<message>") .ret (onLine 86)) =
  expectPass
    ["✓ <description>",
     "",
     "  | LOG MESSAGES",
     "  |     <message>"]

-- it includes Logf() messages in the test report (96-108)
#guard satisfying (.do_ (.log "<format value>") .ret (onLine 99)) =
  expectPass
    ["✓ <description>",
     "",
     "  | LOG MESSAGES",
     "  |     <format value>"]

-- it fails if Error() is called (109-124)
#guard satisfying (.do_ (.error "<message>") .ret (onLine 112)) =
  expectFail
    ["✗ <description> (the expectation failed)",
     "",
     "  | EXPLANATION",
     "  |     Error() called at expectation.satisfy_test.go:112",
     "  | ",
     "  | LOG MESSAGES",
     "  |     <message>"]

-- fails if Errorf() is called (125-140)
#guard satisfying (.do_ (.error "<format value>" true) .ret (onLine 128)) =
  expectFail
    ["✗ <description> (the expectation failed)",
     "",
     "  | EXPLANATION",
     "  |     Errorf() called at expectation.satisfy_test.go:128",
     "  | ",
     "  | LOG MESSAGES",
     "  |     <format value>"]

-- fails if Fatal() is called (141-156)
#guard satisfying (.do_ (.fatal "<message>") .ret (onLine 144)) =
  expectFail
    ["✗ <description> (the expectation failed)",
     "",
     "  | EXPLANATION",
     "  |     Fatal() called at expectation.satisfy_test.go:144",
     "  | ",
     "  | LOG MESSAGES",
     "  |     <message>"]

-- fails if Fatalf() is called (157-172)
#guard satisfying (.do_ (.fatal "<format value>" true) .ret (onLine 160)) =
  expectFail
    ["✗ <description> (the expectation failed)",
     "",
     "  | EXPLANATION",
     "  |     Fatalf() called at expectation.satisfy_test.go:160",
     "  | ",
     "  | LOG MESSAGES",
     "  |     <format value>"]

-- fails if Fail() is called within a helper function (173-190)
#guard satisfying (.do_ .helper (.do_ .fail .ret (inHelper 178 181)) (inHelper 177 181)) =
  expectFail
    ["✗ <description> (the expectation failed)",
     "",
     "  | EXPLANATION",
     "  |     Fail() called indirectly by call at expectation.satisfy_test.go:181"]

-- fails if Fail() is called when the expectation function itself is a helper function (191-204)
#guard satisfying (.do_ .helper (.do_ .fail .ret (onLine 195)) (onLine 194)) =
  expectFail
    ["✗ <description> (the expectation failed)",
     "",
     "  | EXPLANATION",
     "  |     Fail() called at expectation.satisfy_test.go:195"]

-- fails if Fail() is called within a helper function when the expectation function itself is also a helper function (205-224)
#guard satisfying (.do_ .helper (.do_ .helper (.do_ .fail .ret (inHelper 212 215)) (inHelper 211 215)) (onLine 208)) =
  expectFail
    ["✗ <description> (the expectation failed)",
     "",
     "  | EXPLANATION",
     "  |     Fail() called indirectly by call at expectation.satisfy_test.go:215"]

-- does not include an explanation when negated and a sibling expectation passes (228-245)
#guard expectNoop emptyApp (noneOf [.satisfy "<always pass>" fun _ => .ret,
    .satisfy "<always fail>" fun _ => .do_ .fail .ret]) =
  expectFail
    ["✗ none of (1 of the expectations passed unexpectedly)",
     "    ✓ <always pass>",
     "    ✗ <always fail> (the expectation failed)"]

/-- What became of the function, and what it logged. -/
def ran (p : SProg) : Bool × List String × Option String :=
  match satDone p {} with
  | (t, v) => (t.ok, t.messages, v)

/-- Logs the answer of a question. -/
def tell (o : SOp) (k : SProg) : SProg :=
  .op o plainStack fun r => .do_ (.log (if r = .returned true then "yes" else "no")) k

-- Cleanup() registers a function to be executed when the test ends (290-308)
#guard ran (.cleanup (.do_ (.log "1") .ret) (.cleanup (.do_ (.log "2") .ret) .ret)) =
  (true, ["2", "1"], none)
-- Error(), Errorf(), Fail() mark the test as failed, do not abort execution (311-371)
#guard ran (.do_ (.error "") (tell .failed .ret)) = (false, ["", "yes"], none)
#guard ran (.do_ (.error "<format>" true) (tell .failed .ret)) = (false, ["<format>", "yes"], none)
#guard ran (.do_ .fail (tell .failed .ret)) = (false, ["yes"], none)
-- FailNow(), Fatal(), Fatalf() mark the test as failed (374-385, 396-407, 418-429)
#guard ran (.op .failNow plainStack fun _ => tell .failed (.panic .abort)) = (false, ["yes"], none)
#guard ran (.op (.fatal "") plainStack fun _ => tell .failed (.panic .abort)) = (false, ["", "yes"], none)
#guard ran (.op (.fatal "<format>" true) plainStack fun _ => tell .failed (.panic .abort)) =
  (false, ["<format>", "yes"], none)
-- ... abort execution (387-394, 409-416, 431-438)
#guard ran (.do_ .failNow (.panic (.user "execution was not aborted"))) = (false, [], none)
#guard ran (.do_ (.fatal "") (.panic (.user "execution was not aborted"))) = (false, [""], none)
#guard ran (.do_ (.fatal "<format>" true) (.panic (.user "execution was not aborted"))) =
  (false, ["<format>"], none)
-- Parallel() does not panic (441-449)
#guard ran (.op .parallel plainStack fun r => if r = .aborted then .panic .abort else .ret) = (true, [], none)
-- Skip(), SkipNow(), Skipf() mark the test as skipped (460-470, 490-500, 520-530)
#guard ran (.op (.skip "") plainStack fun _ => tell .skipped (.panic .abort)) = (true, ["", "yes"], none)
#guard ran (.op .skipNow plainStack fun _ => tell .skipped (.panic .abort)) = (true, ["yes"], none)
#guard ran (.op (.skip "<format>" true) plainStack fun _ => tell .skipped (.panic .abort)) =
  (true, ["<format>", "yes"], none)
-- ... prevent a failure from taking effect (472-480, 502-510, 532-540)
#guard ran (.do_ .fail (.do_ (.skip "") .ret)) = (true, [""], none)
#guard ran (.do_ .fail (.do_ .skipNow .ret)) = (true, [], none)
#guard ran (.do_ .fail (.do_ (.skip "<format>" true) .ret)) = (true, ["<format>"], none)
-- ... abort execution (482-488, 512-518, 542-548)
#guard ran (.do_ (.skip "") (.panic (.user "execution was not aborted"))) = (true, [""], none)
#guard ran (.do_ .skipNow (.panic (.user "execution was not aborted"))) = (true, [], none)
#guard ran (.do_ (.skip "<format>" true) (.panic (.user "execution was not aborted"))) =
  (true, ["<format>"], none)

end Verif.Conform
