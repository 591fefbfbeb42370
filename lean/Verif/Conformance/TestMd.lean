import Verif.Conformance.Host
/-!
# The commands recorded in `test.md`

The records of `--help`, `--version`, the pager and the redirections of the shell are left out.
-/
namespace Nd.Conformance

/-- test.md 127: `nd test/hello.txt` -/
example : prints { inputs := ["hello.txt"] } (bytes! "000000000000 0006 | 48 65 6c 6c 6f 0a                               | Hello.          \n") none = true := by decide +kernel
/-- test.md 129: `nd test/hello.txt test/world.txt` -/
example : prints { inputs := ["hello.txt", "world.txt"] } (bytes! "000000000000 000c | 48 65 6c 6c 6f 0a 77 6f 72 6c 64 0a             | Hello.world.    \n") none = true := by decide +kernel
/-- test.md 136: `cat test/hello.txt | nd` -/
example : prints {} (bytes! "000000000000 0006 | 48 65 6c 6c 6f 0a                               | Hello.          \n") (content "hello.txt") = true := by decide +kernel
/-- test.md 143: `cat test/hello.txt | nd -` -/
example : prints { inputs := ["-"] } (bytes! "000000000000 0006 | 48 65 6c 6c 6f 0a                               | Hello.          \n") (content "hello.txt") = true := by decide +kernel
/-- test.md 145: `cat test/hello.txt | nd /dev/stdin` -/
example : prints { inputs := ["/dev/stdin"] } (bytes! "000000000000 0006 | 48 65 6c 6c 6f 0a                               | Hello.          \n") (content "hello.txt") = true := by decide +kernel
/-- test.md 152: `! (cat test/hello.txt | nd - -          2>&1)` -/
example : fails { inputs := ["-", "-"] } (content "hello.txt") = true := by decide +kernel
/-- test.md 158: `! (cat test/hello.txt | nd - /dev/stdin 2>&1)` -/
example : fails { inputs := ["-", "/dev/stdin"] } (content "hello.txt") = true := by decide +kernel
/-- test.md 164: `! (nd test/hello.txt  | nd --patch=-          - 2>&1)` -/
example : fails { inputs := ["-"], patch := "-" } (some (((host none).run { inputs := ["hello.txt"] }).1)) = true := by decide +kernel
/-- test.md 170: `! (nd test/hello.txt  | nd --patch=/dev/stdin - 2>&1)` -/
example : fails { inputs := ["-"], patch := "/dev/stdin" } (some (((host none).run { inputs := ["hello.txt"] }).1)) = true := by decide +kernel
/-- test.md 176: `! (nd test/hello.txt  | nd --guide=-          - 2>&1)` -/
example : fails { inputs := ["-"], guide := "-" } (some (((host none).run { inputs := ["hello.txt"] }).1)) = true := by decide +kernel
/-- test.md 182: `! (nd test/hello.txt  | nd --guide=/dev/stdin - 2>&1)` -/
example : fails { inputs := ["-"], guide := "/dev/stdin" } (some (((host none).run { inputs := ["hello.txt"] }).1)) = true := by decide +kernel
/-- test.md 188: `! (nd test/hello.txt  | nd --patch=- --guide=- test/world.txt 2>&1)` -/
example : fails { inputs := ["world.txt"], patch := "-", guide := "-" } (some (((host none).run { inputs := ["hello.txt"] }).1)) = true := by decide +kernel
/-- test.md 201: `nd test/hello.txt` -/
example : prints { inputs := ["hello.txt"] } (bytes! "000000000000 0006 | 48 65 6c 6c 6f 0a                               | Hello.          \n") none = true := by decide +kernel
/-- test.md 213: `nd test/hello.txt --output -` -/
example : prints { inputs := ["hello.txt"], output := "-" } (bytes! "000000000000 0006 | 48 65 6c 6c 6f 0a                               | Hello.          \n") none = true := by decide +kernel
/-- test.md 215: `nd test/hello.txt -o       -` -/
example : prints { inputs := ["hello.txt"], output := "-" } (bytes! "000000000000 0006 | 48 65 6c 6c 6f 0a                               | Hello.          \n") none = true := by decide +kernel
/-- test.md 349: `nd --out-format xxx test/hello.txt` -/
example : prints { inputs := ["hello.txt"], outFormat := "xxx" } (bytes! "000000000000 0006 | 48 65 6c 6c 6f 0a                               | Hello.          \n") none = true := by decide +kernel
/-- test.md 351: `nd -f xxx           test/hello.txt` -/
example : prints { inputs := ["hello.txt"], outFormat := "xxx" } (bytes! "000000000000 0006 | 48 65 6c 6c 6f 0a                               | Hello.          \n") none = true := by decide +kernel
/-- test.md 353: `nd --out-format x   test/hello.txt` -/
example : prints { inputs := ["hello.txt"], outFormat := "x" } (bytes! "000000000000 0006 | 48 65 6c 6c 6f 0a                               | Hello.          \n") none = true := by decide +kernel
/-- test.md 355: `nd -f x             test/hello.txt` -/
example : prints { inputs := ["hello.txt"], outFormat := "x" } (bytes! "000000000000 0006 | 48 65 6c 6c 6f 0a                               | Hello.          \n") none = true := by decide +kernel
/-- test.md 357: `nd --out-format nnx test/hello.txt  # FIXME` -/
example : prints { inputs := ["hello.txt"], outFormat := "nnx" } (bytes! "000000000000 0006 | 48 65 6c 6c 6f 0a                               | Hello.          \n") none = true := by decide +kernel
/-- test.md 359: `nd -f nnx           test/hello.txt  # FIXME` -/
example : prints { inputs := ["hello.txt"], outFormat := "nnx" } (bytes! "000000000000 0006 | 48 65 6c 6c 6f 0a                               | Hello.          \n") none = true := by decide +kernel
/-- test.md 361: `nd --out-format ddx test/hello.txt` -/
example : prints { inputs := ["hello.txt"], outFormat := "ddx" } (bytes! "0 6 | 48 65 6c 6c 6f 0a                               | Hello.          \n") none = true := by decide +kernel
/-- test.md 363: `nd -f ddx           test/hello.txt` -/
example : prints { inputs := ["hello.txt"], outFormat := "ddx" } (bytes! "0 6 | 48 65 6c 6c 6f 0a                               | Hello.          \n") none = true := by decide +kernel
/-- test.md 365: `nd --out-format nnb test/hello.txt` -/
example : prints { inputs := ["hello.txt"], outFormat := "nnb" } (bytes! "Hello\n") none = true := by decide +kernel
/-- test.md 367: `nd -f nnb           test/hello.txt` -/
example : prints { inputs := ["hello.txt"], outFormat := "nnb" } (bytes! "Hello\n") none = true := by decide +kernel
/-- test.md 369: `nd --out-format b   test/hello.txt` -/
example : prints { inputs := ["hello.txt"], outFormat := "b" } (bytes! "Hello\n") none = true := by decide +kernel
/-- test.md 371: `nd -f b             test/hello.txt` -/
example : prints { inputs := ["hello.txt"], outFormat := "b" } (bytes! "Hello\n") none = true := by decide +kernel
/-- test.md 373: `! (nd --out-format xx   test/hello.txt 2>&1)` -/
example : fails { inputs := ["hello.txt"], outFormat := "xx" } none = true := by decide +kernel
/-- test.md 377: `! (nd --out-format xxxx test/hello.txt 2>&1 | head -1)` -/
example : fails { inputs := ["hello.txt"], outFormat := "xxxx" } none = true := by decide +kernel
/-- test.md 379: `! (nd --out-format nxx  test/hello.txt 2>&1 | head -1)` -/
example : fails { inputs := ["hello.txt"], outFormat := "nxx" } none = true := by decide +kernel
/-- test.md 381: `! (nd --out-format bbb  test/hello.txt 2>&1 | head -1)` -/
example : fails { inputs := ["hello.txt"], outFormat := "bbb" } none = true := by decide +kernel
/-- test.md 390: `nd -a6 -w6 test/hello.txt | tail -1 | nd --in-format xxx` -/
example : prints { inFormat := "xxx" } (bytes! "000000000000 000c | 00 00 00 00 00 00 48 65 6c 6c 6f 0a             | ......Hello.    \n") (some (lastLine ((host none).run { inputs := ["hello.txt"], pad := "6", width := "6" }).1)) = true := by decide +kernel
/-- test.md 392: `nd -a6 -w6 test/hello.txt | tail -1 | nd -F xxx` -/
example : prints { inFormat := "xxx" } (bytes! "000000000000 000c | 00 00 00 00 00 00 48 65 6c 6c 6f 0a             | ......Hello.    \n") (some (lastLine ((host none).run { inputs := ["hello.txt"], pad := "6", width := "6" }).1)) = true := by decide +kernel
/-- test.md 394: `nd -a6 -w6 test/hello.txt | tail -1 | nd --in-format x` -/
example : prints { inFormat := "x" } (bytes! "000000000000 000c | 00 00 00 00 00 00 48 65 6c 6c 6f 0a             | ......Hello.    \n") (some (lastLine ((host none).run { inputs := ["hello.txt"], pad := "6", width := "6" }).1)) = true := by decide +kernel
/-- test.md 396: `nd -a6 -w6 test/hello.txt | tail -1 | nd -F x` -/
example : prints { inFormat := "x" } (bytes! "000000000000 000c | 00 00 00 00 00 00 48 65 6c 6c 6f 0a             | ......Hello.    \n") (some (lastLine ((host none).run { inputs := ["hello.txt"], pad := "6", width := "6" }).1)) = true := by decide +kernel
/-- test.md 398: `nd -a6 -w6 test/hello.txt | tail -1 | nd --in-format nnx` -/
example : prints { inFormat := "nnx" } (bytes! "000000000000 0006 | 48 65 6c 6c 6f 0a                               | Hello.          \n") (some (lastLine ((host none).run { inputs := ["hello.txt"], pad := "6", width := "6" }).1)) = true := by decide +kernel
/-- test.md 400: `nd -a6 -w6 test/hello.txt | tail -1 | nd -F nnx` -/
example : prints { inFormat := "nnx" } (bytes! "000000000000 0006 | 48 65 6c 6c 6f 0a                               | Hello.          \n") (some (lastLine ((host none).run { inputs := ["hello.txt"], pad := "6", width := "6" }).1)) = true := by decide +kernel
/-- test.md 402: `nd test/hello.txt | nd --in-format b   | head -2` -/
example : starts { inFormat := "b" } (bytes! "000000000000 0010 | 30 30 30 30 30 30 30 30 30 30 30 30 20 30 30 30 | 000000000000 000\n000000000010 0010 | 36 20 7c 20 34 38 20 36 35 20 36 63 20 36 63 20 | 6 | 48 65 6c 6c \n") (some (((host none).run { inputs := ["hello.txt"] }).1)) = true := by decide +kernel
/-- test.md 405: `nd test/hello.txt | nd -F b            | head -2` -/
example : starts { inFormat := "b" } (bytes! "000000000000 0010 | 30 30 30 30 30 30 30 30 30 30 30 30 20 30 30 30 | 000000000000 000\n000000000010 0010 | 36 20 7c 20 34 38 20 36 35 20 36 63 20 36 63 20 | 6 | 48 65 6c 6c \n") (some (((host none).run { inputs := ["hello.txt"] }).1)) = true := by decide +kernel
/-- test.md 408: `nd test/hello.txt | nd --in-format nnb | head -2` -/
example : starts { inFormat := "nnb" } (bytes! "000000000000 0010 | 30 30 30 30 30 30 30 30 30 30 30 30 20 30 30 30 | 000000000000 000\n000000000010 0010 | 36 20 7c 20 34 38 20 36 35 20 36 63 20 36 63 20 | 6 | 48 65 6c 6c \n") (some (((host none).run { inputs := ["hello.txt"] }).1)) = true := by decide +kernel
/-- test.md 411: `nd test/hello.txt | nd -F nnb          | head -2` -/
example : starts { inFormat := "nnb" } (bytes! "000000000000 0010 | 30 30 30 30 30 30 30 30 30 30 30 30 20 30 30 30 | 000000000000 000\n000000000010 0010 | 36 20 7c 20 34 38 20 36 35 20 36 63 20 36 63 20 | 6 | 48 65 6c 6c \n") (some (((host none).run { inputs := ["hello.txt"] }).1)) = true := by decide +kernel
/-- test.md 414: `! (nd test/hello.txt | nd -F xx   2>&1)` -/
example : fails { inFormat := "xx" } (some (((host none).run { inputs := ["hello.txt"] }).1)) = true := by decide +kernel
/-- test.md 418: `! (nd test/hello.txt | nd -F xxxx 2>&1 | head -1)` -/
example : fails { inFormat := "xxxx" } (some (((host none).run { inputs := ["hello.txt"] }).1)) = true := by decide +kernel
/-- test.md 420: `! (nd test/hello.txt | nd -F nxx  2>&1 | head -1)` -/
example : fails { inFormat := "nxx" } (some (((host none).run { inputs := ["hello.txt"] }).1)) = true := by decide +kernel
/-- test.md 422: `! (nd test/hello.txt | nd -F bbb  2>&1 | head -1)` -/
example : fails { inFormat := "bbb" } (some (((host none).run { inputs := ["hello.txt"] }).1)) = true := by decide +kernel
/-- test.md 433: `nd -a2,2                            test/hello.txt` -/
example : prints { inputs := ["hello.txt"], pad := "2,2" } (bytes! "000000000000 000a | 00 00 48 65 6c 6c 6f 0a 00 00                   | ..Hello...      \n") none = true := by decide +kernel
/-- test.md 435: `nd -a2,2 --filler 0                 test/hello.txt` -/
example : prints { inputs := ["hello.txt"], pad := "2,2", filler := "0" } (bytes! "000000000000 000a | 00 00 48 65 6c 6c 6f 0a 00 00                   | ..Hello...      \n") none = true := by decide +kernel
/-- test.md 437: `nd -a2,2 --filler 128               test/hello.txt` -/
example : prints { inputs := ["hello.txt"], pad := "2,2", filler := "128" } (bytes! "000000000000 000a | 80 80 48 65 6c 6c 6f 0a 80 80                   | ..Hello...      \n") none = true := by decide +kernel
/-- test.md 439: `nd -a2,2 --filler 0xff              test/hello.txt` -/
example : prints { inputs := ["hello.txt"], pad := "2,2", filler := "0xff" } (bytes! "000000000000 000a | ff ff 48 65 6c 6c 6f 0a ff ff                   | ..Hello...      \n") none = true := by decide +kernel
/-- test.md 441: `nd -a2,2 --filler "0xffff - 0xff00" test/hello.txt` -/
example : prints { inputs := ["hello.txt"], pad := "2,2", filler := "0xffff - 0xff00" } (bytes! "000000000000 000a | ff ff 48 65 6c 6c 6f 0a ff ff                   | ..Hello...      \n") none = true := by decide +kernel
/-- test.md 443: `nd -a2,2 --filler "0xff & -1"       test/hello.txt` -/
example : prints { inputs := ["hello.txt"], pad := "2,2", filler := "0xff & -1" } (bytes! "000000000000 000a | ff ff 48 65 6c 6c 6f 0a ff ff                   | ..Hello...      \n") none = true := by decide +kernel
/-- test.md 445: `! (nd -a2,2 --filler 256     test/hello.txt 2>&1)` -/
example : fails { inputs := ["hello.txt"], pad := "2,2", filler := "256" } none = true := by decide +kernel
/-- test.md 451: `! (nd -a2,2 --filler "0 - 1" test/hello.txt 2>&1)` -/
example : fails { inputs := ["hello.txt"], pad := "2,2", filler := "0 - 1" } none = true := by decide +kernel
/-- test.md 460: `nd --cat 4   --filler 128 test/hello.txt test/world.txt` -/
example : prints { inputs := ["hello.txt", "world.txt"], cat := "4", filler := "128" } (bytes! "000000000000 0010 | 48 65 6c 6c 6f 0a 80 80 77 6f 72 6c 64 0a 80 80 | Hello...world...\n") none = true := by decide +kernel
/-- test.md 462: `nd --zip 4   --filler 128 test/hello.txt test/world.txt` -/
example : prints { inputs := ["hello.txt", "world.txt"], zip := "4", filler := "128" } (bytes! "000000000000 0010 | 48 65 6c 6c 77 6f 72 6c 6f 0a 80 80 64 0a 80 80 | Hellworlo...d...\n") none = true := by decide +kernel
/-- test.md 464: `nd --pad 4   --filler 128 test/hello.txt` -/
example : prints { inputs := ["hello.txt"], pad := "4", filler := "128" } (bytes! "000000000000 000a | 80 80 80 80 48 65 6c 6c 6f 0a                   | ....Hello.      \n") none = true := by decide +kernel
/-- test.md 466: `nd --pad 0,4 --filler 128 test/hello.txt` -/
example : prints { inputs := ["hello.txt"], pad := "0,4", filler := "128" } (bytes! "000000000000 000a | 48 65 6c 6c 6f 0a 80 80 80 80                   | Hello.....      \n") none = true := by decide +kernel
/-- test.md 468: `nd -a6 -w6 test/hello.txt | tail -1 | nd --in-format x --filler 128` -/
example : prints { inFormat := "x", filler := "128" } (bytes! "000000000000 000c | 80 80 80 80 80 80 48 65 6c 6c 6f 0a             | ......Hello.    \n") (some (lastLine ((host none).run { inputs := ["hello.txt"], pad := "6", width := "6" }).1)) = true := by decide +kernel
/-- test.md 477: `nd test/hello.txt test/world.txt` -/
example : prints { inputs := ["hello.txt", "world.txt"] } (bytes! "000000000000 000c | 48 65 6c 6c 6f 0a 77 6f 72 6c 64 0a             | Hello.world.    \n") none = true := by decide +kernel
/-- test.md 479: `cat test/world.txt | nd test/hello.txt -` -/
example : prints { inputs := ["hello.txt", "-"] } (bytes! "000000000000 000c | 48 65 6c 6c 6f 0a 77 6f 72 6c 64 0a             | Hello.world.    \n") (content "world.txt") = true := by decide +kernel
/-- test.md 481: `cat test/hello.txt | nd - test/world.txt` -/
example : prints { inputs := ["-", "world.txt"] } (bytes! "000000000000 000c | 48 65 6c 6c 6f 0a 77 6f 72 6c 64 0a             | Hello.world.    \n") (content "hello.txt") = true := by decide +kernel
/-- test.md 488: `nd --cat 5           test/hello.txt test/world.txt` -/
example : prints { inputs := ["hello.txt", "world.txt"], cat := "5" } (bytes! "000000000000 0010 | 48 65 6c 6c 6f 0a 00 00 00 00 77 6f 72 6c 64 0a | Hello.....world.\n000000000010 0004 | 00 00 00 00                                     | ....            \n") none = true := by decide +kernel
/-- test.md 491: `nd -c 5              test/hello.txt test/world.txt` -/
example : prints { inputs := ["hello.txt", "world.txt"], cat := "5" } (bytes! "000000000000 0010 | 48 65 6c 6c 6f 0a 00 00 00 00 77 6f 72 6c 64 0a | Hello.....world.\n000000000010 0004 | 00 00 00 00                                     | ....            \n") none = true := by decide +kernel
/-- test.md 496: `cat test/hello.txt | nd --cat 4 - test/world.txt` -/
example : prints { inputs := ["-", "world.txt"], cat := "4" } (bytes! "000000000000 0010 | 48 65 6c 6c 6f 0a 00 00 77 6f 72 6c 64 0a 00 00 | Hello...world...\n") (content "hello.txt") = true := by decide +kernel
/-- test.md 498: `! (nd --cat "0 - 1" test/hello.txt test/world.txt 2>&1)` -/
example : fails { inputs := ["hello.txt", "world.txt"], cat := "0 - 1" } none = true := by decide +kernel
/-- test.md 507: `nd --zip 5           test/hello.txt test/world.txt` -/
example : prints { inputs := ["hello.txt", "world.txt"], zip := "5" } (bytes! "000000000000 0010 | 48 65 6c 6c 6f 77 6f 72 6c 64 0a 00 00 00 00 0a | Helloworld......\n000000000010 0004 | 00 00 00 00                                     | ....            \n") none = true := by decide +kernel
/-- test.md 510: `nd -z 5              test/hello.txt test/world.txt` -/
example : prints { inputs := ["hello.txt", "world.txt"], zip := "5" } (bytes! "000000000000 0010 | 48 65 6c 6c 6f 77 6f 72 6c 64 0a 00 00 00 00 0a | Helloworld......\n000000000010 0004 | 00 00 00 00                                     | ....            \n") none = true := by decide +kernel
/-- test.md 515: `cat test/hello.txt | nd --zip 4 - test/world.txt` -/
example : prints { inputs := ["-", "world.txt"], zip := "4" } (bytes! "000000000000 0010 | 48 65 6c 6c 77 6f 72 6c 6f 0a 00 00 64 0a 00 00 | Hellworlo...d...\n") (content "hello.txt") = true := by decide +kernel
/-- test.md 517: `! (nd --zip "0 - 1" test/hello.txt test/world.txt 2>&1)` -/
example : fails { inputs := ["hello.txt", "world.txt"], zip := "0 - 1" } none = true := by decide +kernel
/-- test.md 528: `nd --cut 1..2      test/hello.txt` -/
example : prints { inputs := ["hello.txt"], cut := "1..2" } (bytes! "000000000000 0001 | 65                                              | e               \n") none = true := by decide +kernel
/-- test.md 530: `nd --cut 1..2,4..5 test/hello.txt` -/
example : prints { inputs := ["hello.txt"], cut := "1..2,4..5" } (bytes! "000000000000 0002 | 65 6f                                           | eo              \n") none = true := by decide +kernel
/-- test.md 532: `nd --cut  ..2,4..  test/hello.txt` -/
example : prints { inputs := ["hello.txt"], cut := "..2,4.." } (bytes! "000000000000 0004 | 48 65 6f 0a                                     | Heo.            \n") none = true := by decide +kernel
/-- test.md 534: `nd --cut  ..       test/hello.txt` -/
example : prints { inputs := ["hello.txt"], cut := ".." } (bytes! "000000000000 0006 | 48 65 6c 6c 6f 0a                               | Hello.          \n") none = true := by decide +kernel
/-- test.md 536: `nd -n 1..2         test/hello.txt` -/
example : prints { inputs := ["hello.txt"], cut := "1..2" } (bytes! "000000000000 0001 | 65                                              | e               \n") none = true := by decide +kernel
/-- test.md 538: `nd -n 1..2,4..5    test/hello.txt` -/
example : prints { inputs := ["hello.txt"], cut := "1..2,4..5" } (bytes! "000000000000 0002 | 65 6f                                           | eo              \n") none = true := by decide +kernel
/-- test.md 540: `nd -n  ..2,4..     test/hello.txt` -/
example : prints { inputs := ["hello.txt"], cut := "..2,4.." } (bytes! "000000000000 0004 | 48 65 6f 0a                                     | Heo.            \n") none = true := by decide +kernel
/-- test.md 542: `nd -n  ..          test/hello.txt` -/
example : prints { inputs := ["hello.txt"], cut := ".." } (bytes! "000000000000 0006 | 48 65 6c 6c 6f 0a                               | Hello.          \n") none = true := by decide +kernel
/-- test.md 544: `nd --cut 2..2      test/hello.txt` -/
example : prints { inputs := ["hello.txt"], cut := "2..2" } (bytes! "") none = true := by decide +kernel
/-- test.md 550: `nd --cut   2..1 test/hello.txt` -/
example : prints { inputs := ["hello.txt"], cut := "2..1" } (bytes! "") none = true := by decide +kernel
/-- test.md 551: `nd --cut 0-1..1 test/hello.txt` -/
example : prints { inputs := ["hello.txt"], cut := "0-1..1" } (bytes! "000000000000 0001 | 48                                              | H               \n") none = true := by decide +kernel
/-- test.md 558: `nd --cut 1..2, test/hello.txt` -/
example : prints { inputs := ["hello.txt"], cut := "1..2," } (bytes! "000000000000 0001 | 65                                              | e               \n") none = true := by decide +kernel
/-- test.md 565: `nd --pad 2,2 test/hello.txt` -/
example : prints { inputs := ["hello.txt"], pad := "2,2" } (bytes! "000000000000 000a | 00 00 48 65 6c 6c 6f 0a 00 00                   | ..Hello...      \n") none = true := by decide +kernel
/-- test.md 567: `nd --pad 2   test/hello.txt` -/
example : prints { inputs := ["hello.txt"], pad := "2" } (bytes! "000000000000 0008 | 00 00 48 65 6c 6c 6f 0a                         | ..Hello.        \n") none = true := by decide +kernel
/-- test.md 569: `nd --pad 2,  test/hello.txt` -/
example : prints { inputs := ["hello.txt"], pad := "2," } (bytes! "000000000000 0008 | 00 00 48 65 6c 6c 6f 0a                         | ..Hello.        \n") none = true := by decide +kernel
/-- test.md 571: `nd --pad  ,2 test/hello.txt` -/
example : prints { inputs := ["hello.txt"], pad := ",2" } (bytes! "000000000000 0008 | 48 65 6c 6c 6f 0a 00 00                         | Hello...        \n") none = true := by decide +kernel
/-- test.md 573: `nd -a 2,2    test/hello.txt` -/
example : prints { inputs := ["hello.txt"], pad := "2,2" } (bytes! "000000000000 000a | 00 00 48 65 6c 6c 6f 0a 00 00                   | ..Hello...      \n") none = true := by decide +kernel
/-- test.md 575: `nd -a 2      test/hello.txt` -/
example : prints { inputs := ["hello.txt"], pad := "2" } (bytes! "000000000000 0008 | 00 00 48 65 6c 6c 6f 0a                         | ..Hello.        \n") none = true := by decide +kernel
/-- test.md 577: `nd -a 2,     test/hello.txt` -/
example : prints { inputs := ["hello.txt"], pad := "2," } (bytes! "000000000000 0008 | 00 00 48 65 6c 6c 6f 0a                         | ..Hello.        \n") none = true := by decide +kernel
/-- test.md 579: `nd -a  ,2    test/hello.txt` -/
example : prints { inputs := ["hello.txt"], pad := ",2" } (bytes! "000000000000 0008 | 48 65 6c 6c 6f 0a 00 00                         | Hello...        \n") none = true := by decide +kernel
/-- test.md 581: `! (nd --pad=-2   test/hello.txt 2>&1)` -/
example : fails { inputs := ["hello.txt"], pad := "-2" } none = true := by decide +kernel
/-- test.md 585: `! (nd --pad 2,2, test/hello.txt 2>&1)` -/
example : fails { inputs := ["hello.txt"], pad := "2,2," } none = true := by decide +kernel
/-- test.md 589: `! (nd --pad ,,   test/hello.txt 2>&1 | head -1)` -/
example : fails { inputs := ["hello.txt"], pad := ",," } none = true := by decide +kernel
/-- test.md 591: `! (nd --pad xx   test/hello.txt 2>&1 | head -1)` -/
example : fails { inputs := ["hello.txt"], pad := "xx" } none = true := by decide +kernel
/-- test.md 598: `nd --pad 2,2 --cut 1..2,4..5 test/hello.txt` -/
example : prints { inputs := ["hello.txt"], pad := "2,2", cut := "1..2,4..5" } (bytes! "000000000000 0006 | 00 00 65 6f 00 00                               | ..eo..          \n") none = true := by decide +kernel
/-- test.md 600: `nd --cut 1..2,4..5 --pad 2,2 test/hello.txt` -/
example : prints { inputs := ["hello.txt"], cut := "1..2,4..5", pad := "2,2" } (bytes! "000000000000 0006 | 00 00 65 6f 00 00                               | ..eo..          \n") none = true := by decide +kernel
/-- test.md 609: `echo "02 02 | 68" | nd --patch -          test/hello.txt` -/
example : prints { inputs := ["hello.txt"], patch := "-" } (bytes! "000000000000 0005 | 48 65 68 6f 0a                                  | Heho.           \n") (some (bytes! "02 02 | 68\n")) = true := by decide +kernel
/-- test.md 611: `echo "02 02 | 68" | nd --patch /dev/stdin test/hello.txt` -/
example : prints { inputs := ["hello.txt"], patch := "/dev/stdin" } (bytes! "000000000000 0005 | 48 65 68 6f 0a                                  | Heho.           \n") (some (bytes! "02 02 | 68\n")) = true := by decide +kernel
/-- test.md 613: `echo "02 04 | 68" | nd --patch -          test/hello.txt` -/
example : prints { inputs := ["hello.txt"], patch := "-" } (bytes! "000000000000 0003 | 48 65 68                                        | Heh             \n") (some (bytes! "02 04 | 68\n")) = true := by decide +kernel
/-- test.md 615: `echo "02 05 | 68" | nd --patch -          test/hello.txt` -/
example : prints { inputs := ["hello.txt"], patch := "-" } (bytes! "000000000000 0003 | 48 65 68                                        | Heh             \n") (some (bytes! "02 05 | 68\n")) = true := by decide +kernel
/-- test.md 622: `echo "02 05 | 68 "        | nd --patch - test/hello.txt` -/
example : prints { inputs := ["hello.txt"], patch := "-" } (bytes! "000000000000 0003 | 48 65 68                                        | Heh             \n") (some (bytes! "02 05 | 68 \n")) = true := by decide +kernel
/-- test.md 624: `echo "02 05 | 68 |"       | nd --patch - test/hello.txt` -/
example : prints { inputs := ["hello.txt"], patch := "-" } (bytes! "000000000000 0003 | 48 65 68                                        | Heh             \n") (some (bytes! "02 05 | 68 |\n")) = true := by decide +kernel
/-- test.md 626: `echo "02 05 | 68 | "      | nd --patch - test/hello.txt` -/
example : prints { inputs := ["hello.txt"], patch := "-" } (bytes! "000000000000 0003 | 48 65 68                                        | Heh             \n") (some (bytes! "02 05 | 68 | \n")) = true := by decide +kernel
/-- test.md 628: `echo "02 05 | 68 |abcde"  | nd --patch - test/hello.txt` -/
example : prints { inputs := ["hello.txt"], patch := "-" } (bytes! "000000000000 0003 | 48 65 68                                        | Heh             \n") (some (bytes! "02 05 | 68 |abcde\n")) = true := by decide +kernel
/-- test.md 630: `echo "02 05 | 68 | abcde" | nd --patch - test/hello.txt` -/
example : prints { inputs := ["hello.txt"], patch := "-" } (bytes! "000000000000 0003 | 48 65 68                                        | Heh             \n") (some (bytes! "02 05 | 68 | abcde\n")) = true := by decide +kernel
/-- test.md 632: `echo "02 05 | 68  |"      | nd --patch - test/hello.txt` -/
example : prints { inputs := ["hello.txt"], patch := "-" } (bytes! "000000000000 0003 | 48 65 68                                        | Heh             \n") (some (bytes! "02 05 | 68  |\n")) = true := by decide +kernel
/-- test.md 634: `echo "02 05 | 68   |"     | nd --patch - test/hello.txt` -/
example : prints { inputs := ["hello.txt"], patch := "-" } (bytes! "000000000000 0003 | 48 65 68                                        | Heh             \n") (some (bytes! "02 05 | 68   |\n")) = true := by decide +kernel
/-- test.md 636: `echo "02 05 | 68    |"    | nd --patch - test/hello.txt` -/
example : prints { inputs := ["hello.txt"], patch := "-" } (bytes! "000000000000 0003 | 48 65 68                                        | Heh             \n") (some (bytes! "02 05 | 68    |\n")) = true := by decide +kernel
/-- test.md 638: `echo "02 05 | 68     |"   | nd --patch - test/hello.txt` -/
example : prints { inputs := ["hello.txt"], patch := "-" } (bytes! "000000000000 0003 | 48 65 68                                        | Heh             \n") (some (bytes! "02 05 | 68     |\n")) = true := by decide +kernel
/-- test.md 645: `printf "02 05 | 68"             | nd --patch - test/hello.txt` -/
example : prints { inputs := ["hello.txt"], patch := "-" } (bytes! "000000000000 0003 | 48 65 68                                        | Heh             \n") (some (bytes! "02 05 | 68")) = true := by decide +kernel
/-- test.md 647: `printf "02 01 | 68\n03 01 | 68" | nd --patch - test/hello.txt` -/
example : prints { inputs := ["hello.txt"], patch := "-" } (bytes! "000000000000 0006 | 48 65 68 68 6f 0a                               | Hehho.          \n") (some (bytes! "02 01 | 68\n03 01 | 68")) = true := by decide +kernel
/-- test.md 654: `   echo "2 5 | 68"                | nd --patch - test/hello.txt` -/
example : prints { inputs := ["hello.txt"], patch := "-" } (bytes! "000000000000 0003 | 48 65 68                                        | Heh             \n") (some (bytes! "2 5 | 68\n")) = true := by decide +kernel
/-- test.md 656: `   echo "00000000000002 5 | 68"   | nd --patch - test/hello.txt` -/
example : prints { inputs := ["hello.txt"], patch := "-" } (bytes! "000000000000 0003 | 48 65 68                                        | Heh             \n") (some (bytes! "00000000000002 5 | 68\n")) = true := by decide +kernel
/-- test.md 658: `   echo "000000000000002 5 | 68"  | nd --patch - test/hello.txt` -/
example : prints { inputs := ["hello.txt"], patch := "-" } (bytes! "000000000000 0003 | 48 65 68                                        | Heh             \n") (some (bytes! "000000000000002 5 | 68\n")) = true := by decide +kernel
/-- test.md 660: `! (echo "0000000000000002 5 | 68" | nd --patch - test/hello.txt 2>&1)` -/
example : fails { inputs := ["hello.txt"], patch := "-" } (some (bytes! "0000000000000002 5 | 68\n")) = true := by decide +kernel
/-- test.md 663: `   echo "2 00000000000005 | 68"   | nd --patch - test/hello.txt` -/
example : prints { inputs := ["hello.txt"], patch := "-" } (bytes! "000000000000 0003 | 48 65 68                                        | Heh             \n") (some (bytes! "2 00000000000005 | 68\n")) = true := by decide +kernel
/-- test.md 665: `   echo "2 000000000000005 | 68"  | nd --patch - test/hello.txt` -/
example : prints { inputs := ["hello.txt"], patch := "-" } (bytes! "000000000000 0003 | 48 65 68                                        | Heh             \n") (some (bytes! "2 000000000000005 | 68\n")) = true := by decide +kernel
/-- test.md 667: `! (echo "2 0000000000000005 | 68" | nd --patch - test/hello.txt 2>&1)` -/
example : fails { inputs := ["hello.txt"], patch := "-" } (some (bytes! "2 0000000000000005 | 68\n")) = true := by decide +kernel
/-- test.md 675: `echo "00 00 | 6c 6c" | nd --patch - test/hello.txt` -/
example : prints { inputs := ["hello.txt"], patch := "-" } (bytes! "000000000000 0008 | 6c 6c 48 65 6c 6c 6f 0a                         | llHello.        \n") (some (bytes! "00 00 | 6c 6c\n")) = true := by decide +kernel
/-- test.md 677: `echo "02 00 | 6c 6c" | nd --patch - test/hello.txt` -/
example : prints { inputs := ["hello.txt"], patch := "-" } (bytes! "000000000000 0008 | 48 65 6c 6c 6c 6c 6f 0a                         | Hellllo.        \n") (some (bytes! "02 00 | 6c 6c\n")) = true := by decide +kernel
/-- test.md 679: `echo "06 00 | 6c 6c" | nd --patch - test/hello.txt  # FIXME` -/
example : prints { inputs := ["hello.txt"], patch := "-" } (bytes! "000000000000 0006 | 48 65 6c 6c 6f 0a                               | Hello.          \n") (some (bytes! "06 00 | 6c 6c\n")) = true := by decide +kernel
/-- test.md 681: `echo "07 00 | 6c 6c" | nd --patch - test/hello.txt` -/
example : prints { inputs := ["hello.txt"], patch := "-" } (bytes! "000000000000 0006 | 48 65 6c 6c 6f 0a                               | Hello.          \n") (some (bytes! "07 00 | 6c 6c\n")) = true := by decide +kernel
/-- test.md 688: `echo "02 02 | " | nd --patch - test/hello.txt` -/
example : prints { inputs := ["hello.txt"], patch := "-" } (bytes! "000000000000 0004 | 48 65 6f 0a                                     | Heo.            \n") (some (bytes! "02 02 | \n")) = true := by decide +kernel
/-- test.md 690: `echo "02 04 | " | nd --patch - test/hello.txt` -/
example : prints { inputs := ["hello.txt"], patch := "-" } (bytes! "000000000000 0002 | 48 65                                           | He              \n") (some (bytes! "02 04 | \n")) = true := by decide +kernel
/-- test.md 692: `echo "02 05 | " | nd --patch - test/hello.txt` -/
example : prints { inputs := ["hello.txt"], patch := "-" } (bytes! "000000000000 0002 | 48 65                                           | He              \n") (some (bytes! "02 05 | \n")) = true := by decide +kernel
/-- test.md 699: `   echo "02 02"     | nd --patch - test/hello.txt` -/
example : prints { inputs := ["hello.txt"], patch := "-" } (bytes! "000000000000 0004 | 48 65 6f 0a                                     | Heo.            \n") (some (bytes! "02 02\n")) = true := by decide +kernel
/-- test.md 701: `! (echo "02 02 "    | nd --patch - test/hello.txt)` -/
example : fails { inputs := ["hello.txt"], patch := "-" } (some (bytes! "02 02 \n")) = true := by decide +kernel
/-- test.md 702: `! (echo "02 02 |"   | nd --patch - test/hello.txt)` -/
example : fails { inputs := ["hello.txt"], patch := "-" } (some (bytes! "02 02 |\n")) = true := by decide +kernel
/-- test.md 703: `! (echo "02 02 |  " | nd --patch - test/hello.txt)` -/
example : prints { inputs := ["hello.txt"], patch := "-" } (bytes! "000000000000 0004 | 48 65 6f 0a                                     | Heo.            \n") (some (bytes! "02 02 |  \n")) = true := by decide +kernel
/-- test.md 217, 219: `nd test/hello.txt --output /dev/stdout` -/
example : writes { inputs := ["hello.txt"], output := "/dev/stdout" } [("/dev/stdout", some (bytes! "000000000000 0006 | 48 65 6c 6c 6f 0a                               | Hello.          \n"))] = true := by decide +kernel
/-- test.md 222: `(nd test/hello.txt -o out.txt && cat out.txt)` -/
example : writes { inputs := ["hello.txt"], output := "out.txt" } [("out.txt", some (bytes! "000000000000 0006 | 48 65 6c 6c 6f 0a                               | Hello.          \n"))] = true := by decide +kernel
/-- test.md 231: `nd test/hello.txt -w3 -o "out.{l}.txt"` -/
example : writes { inputs := ["hello.txt"], width := "3", output := "out.{l}.txt" }
    [("out.0.txt", some (bytes! "000000000000 0003 | 48 65 6c | Hel\n")), ("out.1.txt", some (bytes! "000000000003 0003 | 6c 6f 0a | lo.\n")), ("out.2.txt", none)] = true := by decide +kernel
/-- test.md 239: `nd test/hello.txt -w3 -o "out.{n}.txt"` -/
example : writes { inputs := ["hello.txt"], width := "3", output := "out.{n}.txt" }
    [("out.0.txt", some (bytes! "000000000000 0003 | 48 65 6c | Hel\n")), ("out.3.txt", some (bytes! "000000000003 0003 | 6c 6f 0a | lo.\n")), ("out.1.txt", none)] = true := by decide +kernel
/-- test.md 247: `nd test/hello.txt -w3 -o "out.{n:02x}.txt"` -/
example : writes { inputs := ["hello.txt"], width := "3", output := "out.{n:02x}.txt" }
    [("out.00.txt", some (bytes! "000000000000 0003 | 48 65 6c | Hel\n")), ("out.03.txt", some (bytes! "000000000003 0003 | 6c 6f 0a | lo.\n")), ("out.0.txt", none)] = true := by decide +kernel
/-- test.md 255: `nd test/hello.txt -w3 -o "out.{(n+8):02x}.txt"` -/
example : writes { inputs := ["hello.txt"], width := "3", output := "out.{(n+8):02x}.txt" }
    [("out.08.txt", some (bytes! "000000000000 0003 | 48 65 6c | Hel\n")), ("out.0b.txt", some (bytes! "000000000003 0003 | 6c 6f 0a | lo.\n")), ("out.00.txt", none)] = true := by decide +kernel
/-- test.md 295, 297: `nd --patch-back cat test/hello.txt` -/
example : prints { inputs := ["hello.txt"], patchBack := "cat" } (bytes! "Hello\n") = true := by decide +kernel
/-- test.md 299, 301: `nd --patch-back "sed s/48/68/" test/hello.txt` -/
example : prints { inputs := ["hello.txt"], patchBack := "sed s/48/68/" } (bytes! "hello\n") = true := by decide +kernel
/-- test.md 311, 314: `nd -P "sed s/6c/4c/" --inplace tmp.1.txt` -/
example : edits { inputs := ["tmp.1.txt"], inplace := true, patchBack := "sed s/6c/4c/" } [("tmp.1.txt", bytes! "Hello\n")]
    [("tmp.1.txt", some (bytes! "HeLlo\n")), ("tmp.1.txt.tmp", none)] = true := by decide +kernel
/-- test.md 322: `nd -P "sed s/6c/4c/" --inplace tmp.1.txt tmp.2.txt tmp.3.txt` -/
example : edits { inputs := ["tmp.1.txt", "tmp.2.txt", "tmp.3.txt"], inplace := true, patchBack := "sed s/6c/4c/" }
    [("tmp.1.txt", bytes! "Hello\n"), ("tmp.2.txt", bytes! "Hello\n"), ("tmp.3.txt", bytes! "Hello\n")]
    [("tmp.1.txt", some (bytes! "HeLlo\n")), ("tmp.2.txt", some (bytes! "HeLlo\n")), ("tmp.3.txt", some (bytes! "HeLlo\n")), ("tmp.1.txt.tmp", none)] = true := by decide +kernel
/-- test.md 339: `nd -P "sed s/6c/4c/" --inplace tmp.1.txt tmp.1.txt tmp.1.txt` -/
example : edits { inputs := ["tmp.1.txt", "tmp.1.txt", "tmp.1.txt"], inplace := true, patchBack := "sed s/6c/4c/" } [("tmp.1.txt", bytes! "Hello\n")]
    [("tmp.1.txt", some (bytes! "HeLlo\n")), ("tmp.1.txt.tmp", none)] = true := by decide +kernel

end Nd.Conformance
