import Verif.Conformance.Host
/-!
# The commands recorded in `README.md`

The records of `--help`, `--version`, the pager and the redirections of the shell are left out.
-/
namespace Nd.Conformance

/-- README.md 11: `nd quick.txt` -/
example : prints { inputs := ["quick.txt"] } (bytes! "000000000000 0010 | 54 68 65 20 71 75 69 63 6b 20 62 72 6f 77 6e 20 | The quick brown \n000000000010 0010 | 66 6f 78 20 6a 75 6d 70 73 20 6f 76 65 72 20 74 | fox jumps over t\n000000000020 000d | 68 65 20 6c 61 7a 79 20 64 6f 67 2e 0a          | he lazy dog..   \n") none = true := by decide +kernel
/-- README.md 22: `nd --patch=<(echo "000000000010 0003 | 66 72 6f 67") quick.txt` -/
example : prints { inputs := ["quick.txt"], patch := "-" } (bytes! "000000000000 0010 | 54 68 65 20 71 75 69 63 6b 20 62 72 6f 77 6e 20 | The quick brown \n000000000010 0010 | 66 72 6f 67 20 6a 75 6d 70 73 20 6f 76 65 72 20 | frog jumps over \n000000000020 000e | 74 68 65 20 6c 61 7a 79 20 64 6f 67 2e 0a       | the lazy dog..  \n") (some (bytes! "000000000010 0003 | 66 72 6f 67\n")) = true := by decide +kernel
/-- README.md 119: `nd --cat 7 quick.txt quick.txt` -/
example : prints { inputs := ["quick.txt", "quick.txt"], cat := "7" } (bytes! "000000000000 0010 | 54 68 65 20 71 75 69 63 6b 20 62 72 6f 77 6e 20 | The quick brown \n000000000010 0010 | 66 6f 78 20 6a 75 6d 70 73 20 6f 76 65 72 20 74 | fox jumps over t\n000000000020 0010 | 68 65 20 6c 61 7a 79 20 64 6f 67 2e 0a 00 00 00 | he lazy dog.....\n000000000030 0010 | 00 54 68 65 20 71 75 69 63 6b 20 62 72 6f 77 6e | .The quick brown\n000000000040 0010 | 20 66 6f 78 20 6a 75 6d 70 73 20 6f 76 65 72 20 |  fox jumps over \n000000000050 0010 | 74 68 65 20 6c 61 7a 79 20 64 6f 67 2e 0a 00 00 | the lazy dog....\n000000000060 0002 | 00 00                                           | ..              \n") none = true := by decide +kernel
/-- README.md 134: `nd --zip 7 quick.txt quick.txt` -/
example : prints { inputs := ["quick.txt", "quick.txt"], zip := "7" } (bytes! "000000000000 0010 | 54 68 65 20 71 75 69 54 68 65 20 71 75 69 63 6b | The quiThe quick\n000000000010 0010 | 20 62 72 6f 77 63 6b 20 62 72 6f 77 6e 20 66 6f |  browck brown fo\n000000000020 0010 | 78 20 6a 6e 20 66 6f 78 20 6a 75 6d 70 73 20 6f | x jn fox jumps o\n000000000030 0010 | 76 75 6d 70 73 20 6f 76 65 72 20 74 68 65 20 65 | vumps over the e\n000000000040 0010 | 72 20 74 68 65 20 6c 61 7a 79 20 64 6f 6c 61 7a | r the lazy dolaz\n000000000050 0010 | 79 20 64 6f 67 2e 0a 00 00 00 00 67 2e 0a 00 00 | y dog......g....\n000000000060 0002 | 00 00                                           | ..              \n") none = true := by decide +kernel
/-- README.md 147: `nd --zip 1 quick.txt quick.txt | nd --in-format x --width 2,0..1 --out-format b` -/
example : prints { inFormat := "x", width := "2,0..1", outFormat := "b" } (bytes! "The quick brown fox jumps over the lazy dog.\n") (some (((host none).run { inputs := ["quick.txt", "quick.txt"], zip := "1" }).1)) = true := by decide +kernel
/-- README.md 174: `nd --cut 4..9 quick.txt` -/
example : prints { inputs := ["quick.txt"], cut := "4..9" } (bytes! "000000000000 0005 | 71 75 69 63 6b                                  | quick           \n") none = true := by decide +kernel
/-- README.md 176: `nd --cut 4..9,10..15,10..19 quick.txt` -/
example : prints { inputs := ["quick.txt"], cut := "4..9,10..15,10..19" } (bytes! "000000000000 000e | 71 75 69 63 6b 62 72 6f 77 6e 20 66 6f 78       | quickbrown fox  \n") none = true := by decide +kernel
/-- README.md 185: `nd --pad 4,6 quick.txt` -/
example : prints { inputs := ["quick.txt"], pad := "4,6" } (bytes! "000000000000 0010 | 00 00 00 00 54 68 65 20 71 75 69 63 6b 20 62 72 | ....The quick br\n000000000010 0010 | 6f 77 6e 20 66 6f 78 20 6a 75 6d 70 73 20 6f 76 | own fox jumps ov\n000000000020 0010 | 65 72 20 74 68 65 20 6c 61 7a 79 20 64 6f 67 2e | er the lazy dog.\n000000000030 0007 | 0a 00 00 00 00 00 00                            | .......         \n") none = true := by decide +kernel
/-- README.md 205: `nd --patch patch.txt quick.txt` -/
example : prints { inputs := ["quick.txt"], patch := "patch.txt" } (bytes! "000000000000 0010 | 54 68 65 20 71 75 69 63 6b 20 62 72 6f 77 6e 20 | The quick brown \n000000000010 0010 | 66 72 6f 67 20 6a 75 6d 70 73 20 6f 76 65 72 20 | frog jumps over \n000000000020 000e | 74 68 65 20 6c 61 7a 79 20 64 6f 67 2e 0a       | the lazy dog..  \n") none = true := by decide +kernel
/-- README.md 220: `nd --width 8,s-2..e+2 quick.txt` -/
example : prints { inputs := ["quick.txt"], width := "8,s-2..e+2" } (bytes! "000000000000 000a | 54 68 65 20 71 75 69 63 6b 20       | The quick   \n000000000006 000c | 69 63 6b 20 62 72 6f 77 6e 20 66 6f | ick brown fo\n00000000000e 000c | 6e 20 66 6f 78 20 6a 75 6d 70 73 20 | n fox jumps \n000000000016 000c | 6d 70 73 20 6f 76 65 72 20 74 68 65 | mps over the\n00000000001e 000c | 20 74 68 65 20 6c 61 7a 79 20 64 6f |  the lazy do\n000000000026 0007 | 79 20 64 6f 67 2e 0a                | y dog..     \n") none = true := by decide +kernel
/-- README.md 236: `nd --find "6f" quick.txt` -/
example : prints { inputs := ["quick.txt"], find := "6f" } (bytes! "00000000000c 0001 | 6f | o\n000000000011 0001 | 6f | o\n00000000001a 0001 | 6f | o\n000000000029 0001 | 6f | o\n") none = true := by decide +kernel
/-- README.md 241: `nd --find "66 6f 78" quick.txt` -/
example : prints { inputs := ["quick.txt"], find := "66 6f 78" } (bytes! "000000000010 0003 | 66 6f 78 | fox\n") none = true := by decide +kernel
/-- README.md 250: `nd walk.bin` -/
example : prints { inputs := ["walk.bin"] } (bytes! "000000000000 0010 | 0b 61 20 70 61 79 6c 6f 61 64 00 11 61 6e 6f 74 | .a payload..anot\n000000000010 000c | 68 65 72 20 70 61 79 6c 6f 61 64 00             | her payload.    \n") none = true := by decide +kernel
/-- README.md 253: `nd --walk "b[0]" walk.bin` -/
example : prints { inputs := ["walk.bin"], walk := "b[0]" } (bytes! "000000000000 000b | 0b 61 20 70 61 79 6c 6f 61 64 00 | .a payload.\n00000000000b 0011 | 11 61 6e 6f 74 68 65 72 20 70 61 79 6c 6f 61 64 00 | .another payload.\n") none = true := by decide +kernel
/-- README.md 256: `nd --walk "1,b[0]-1" walk.bin` -/
example : prints { inputs := ["walk.bin"], walk := "1,b[0]-1" } (bytes! "000000000000 0001 | 0b | .\n000000000001 000a | 61 20 70 61 79 6c 6f 61 64 00 | a payload.\n00000000000b 0001 | 11 | .\n00000000000c 0010 | 61 6e 6f 74 68 65 72 20 70 61 79 6c 6f 61 64 00 | another payload.\n") none = true := by decide +kernel
/-- README.md 268: `nd --slice 4..9 quick.txt` -/
example : prints { inputs := ["quick.txt"], slice := "4..9" } (bytes! "000000000004 0005 | 71 75 69 63 6b | quick\n") none = true := by decide +kernel
/-- README.md 270: `nd --slice 4..9,10..15,10..19 quick.txt` -/
example : prints { inputs := ["quick.txt"], slice := "4..9,10..15,10..19" } (bytes! "000000000004 0005 | 71 75 69 63 6b | quick\n00000000000a 0005 | 62 72 6f 77 6e | brown\n00000000000a 0009 | 62 72 6f 77 6e 20 66 6f 78 | brown fox\n") none = true := by decide +kernel
/-- README.md 284: `nd --guide guide.txt quick.txt` -/
example : prints { inputs := ["quick.txt"], guide := "guide.txt" } (bytes! "000000000010 0003 | 66 6f 78 | fox\n000000000028 0003 | 64 6f 67 | dog\n") none = true := by decide +kernel
/-- README.md 298: `nd --regex "[fd]o[xg]" quick.txt` -/
example : prints { inputs := ["quick.txt"], regex := "[fd]o[xg]" } (bytes! "000000000010 0003 | 66 6f 78                                        | fox             \n000000000028 0003 | 64 6f 67                                        | dog             \n") none = true := by decide +kernel
/-- README.md 308: `nd --find "6f" quick.txt` -/
example : prints { inputs := ["quick.txt"], find := "6f" } (bytes! "00000000000c 0001 | 6f | o\n000000000011 0001 | 6f | o\n00000000001a 0001 | 6f | o\n000000000029 0001 | 6f | o\n") none = true := by decide +kernel
/-- README.md 313: `nd --find "6f" --invert s..e quick.txt` -/
example : prints { inputs := ["quick.txt"], find := "6f", invert := "s..e" } (bytes! "000000000000 000c | 54 68 65 20 71 75 69 63 6b 20 62 72 | The quick br\n00000000000d 0004 | 77 6e 20 66 | wn f\n000000000012 0008 | 78 20 6a 75 6d 70 73 20 | x jumps \n00000000001b 000e | 76 65 72 20 74 68 65 20 6c 61 7a 79 20 64 | ver the lazy d\n00000000002a 0003 | 67 2e 0a | g..\n") none = true := by decide +kernel
/-- README.md 319: `nd --find "6f" --invert s+4..e-4 quick.txt` -/
example : prints { inputs := ["quick.txt"], find := "6f", invert := "s+4..e-4" } (bytes! "000000000004 0004 | 71 75 69 63 | quic\n00000000001f 0006 | 74 68 65 20 6c 61 | the la\n") none = true := by decide +kernel
/-- README.md 329: `nd --find "6f" quick.txt` -/
example : prints { inputs := ["quick.txt"], find := "6f" } (bytes! "00000000000c 0001 | 6f | o\n000000000011 0001 | 6f | o\n00000000001a 0001 | 6f | o\n000000000029 0001 | 6f | o\n") none = true := by decide +kernel
/-- README.md 334: `nd --find "6f" --extend s-4..e+4 quick.txt` -/
example : prints { inputs := ["quick.txt"], find := "6f", extend := "s-4..e+4" } (bytes! "000000000008 0009 | 6b 20 62 72 6f 77 6e 20 66 | k brown f\n00000000000d 0009 | 77 6e 20 66 6f 78 20 6a 75 | wn fox ju\n000000000016 0009 | 6d 70 73 20 6f 76 65 72 20 | mps over \n000000000025 0008 | 7a 79 20 64 6f 67 2e 0a | zy dog..\n") none = true := by decide +kernel
/-- README.md 357: `nd --find "6f" quick.txt` -/
example : prints { inputs := ["quick.txt"], find := "6f" } (bytes! "00000000000c 0001 | 6f | o\n000000000011 0001 | 6f | o\n00000000001a 0001 | 6f | o\n000000000029 0001 | 6f | o\n") none = true := by decide +kernel
/-- README.md 362: `nd --find "6f" --merge 4 quick.txt` -/
example : prints { inputs := ["quick.txt"], find := "6f", merge := "4" } (bytes! "00000000000c 0006 | 6f 77 6e 20 66 6f | own fo\n00000000001a 0001 | 6f | o\n000000000029 0001 | 6f | o\n") none = true := by decide +kernel
/-- README.md 366: `nd --find "6f" --merge 8 quick.txt` -/
example : prints { inputs := ["quick.txt"], find := "6f", merge := "8" } (bytes! "00000000000c 000f | 6f 77 6e 20 66 6f 78 20 6a 75 6d 70 73 20 6f | own fox jumps o\n000000000029 0001 | 6f | o\n") none = true := by decide +kernel
/-- README.md 376: `nd --width 4 --lines 0..3 quick.txt` -/
example : prints { inputs := ["quick.txt"], width := "4", lines := "0..3" } (bytes! "000000000000 0004 | 54 68 65 20 | The \n000000000004 0004 | 71 75 69 63 | quic\n000000000008 0004 | 6b 20 62 72 | k br\n") none = true := by decide +kernel
/-- README.md 380: `nd --width 4 --lines 0..3,2..4,10.. quick.txt` -/
example : prints { inputs := ["quick.txt"], width := "4", lines := "0..3,2..4,10.." } (bytes! "000000000000 0004 | 54 68 65 20 | The \n000000000004 0004 | 71 75 69 63 | quic\n000000000008 0004 | 6b 20 62 72 | k br\n00000000000c 0004 | 6f 77 6e 20 | own \n000000000028 0004 | 64 6f 67 2e | dog.\n00000000002c 0001 | 0a          | .   \n") none = true := by decide +kernel
/-- README.md 465: `nd --width 8,s+2..e-2 quick.txt | nd --in-format x` -/
example : prints { inFormat := "x" } (bytes! "000000000000 0010 | 00 00 65 20 71 75 00 00 00 00 62 72 6f 77 00 00 | ..e qu....brow..\n000000000010 0010 | 00 00 78 20 6a 75 00 00 00 00 6f 76 65 72 00 00 | ..x ju....over..\n000000000020 000d | 00 00 20 6c 61 7a 00 00 00 00 67 2e 0a          | .. laz....g..   \n") (some (((host none).run { inputs := ["quick.txt"], width := "8,s+2..e-2" }).1)) = true := by decide +kernel
/-- README.md 469: `nd --width 8,s+2..e-2 quick.txt | nd --in-format nnx` -/
example : prints { inFormat := "nnx" } (bytes! "000000000000 0010 | 65 20 71 75 62 72 6f 77 78 20 6a 75 6f 76 65 72 | e qubrowx juover\n000000000010 0007 | 20 6c 61 7a 67 2e 0a                            |  lazg..         \n") (some (((host none).run { inputs := ["quick.txt"], width := "8,s+2..e-2" }).1)) = true := by decide +kernel
/-- README.md 472: `nd --width 8,s+2..e-2 quick.txt | nd --in-format b` -/
example : prints { inFormat := "b" } (bytes! "000000000000 0010 | 30 30 30 30 30 30 30 30 30 30 30 32 20 30 30 30 | 000000000002 000\n000000000010 0010 | 34 20 7c 20 36 35 20 32 30 20 37 31 20 37 35 20 | 4 | 65 20 71 75 \n000000000020 0010 | 7c 20 65 20 71 75 0a 30 30 30 30 30 30 30 30 30 | | e qu.000000000\n000000000030 0010 | 30 30 61 20 30 30 30 34 20 7c 20 36 32 20 37 32 | 00a 0004 | 62 72\n000000000040 0010 | 20 36 66 20 37 37 20 7c 20 62 72 6f 77 0a 30 30 |  6f 77 | brow.00\n000000000050 0010 | 30 30 30 30 30 30 30 30 31 32 20 30 30 30 34 20 | 0000000012 0004 \n000000000060 0010 | 7c 20 37 38 20 32 30 20 36 61 20 37 35 20 7c 20 | | 78 20 6a 75 | \n000000000070 0010 | 78 20 6a 75 0a 30 30 30 30 30 30 30 30 30 30 31 | x ju.00000000001\n000000000080 0010 | 61 20 30 30 30 34 20 7c 20 36 66 20 37 36 20 36 | a 0004 | 6f 76 6\n000000000090 0010 | 35 20 37 32 20 7c 20 6f 76 65 72 0a 30 30 30 30 | 5 72 | over.0000\n0000000000a0 0010 | 30 30 30 30 30 30 32 32 20 30 30 30 34 20 7c 20 | 00000022 0004 | \n0000000000b0 0010 | 32 30 20 36 63 20 36 31 20 37 61 20 7c 20 20 6c | 20 6c 61 7a |  l\n0000000000c0 0010 | 61 7a 0a 30 30 30 30 30 30 30 30 30 30 32 61 20 | az.00000000002a \n0000000000d0 0010 | 30 30 30 33 20 7c 20 36 37 20 32 65 20 30 61 20 | 0003 | 67 2e 0a \n0000000000e0 000a | 20 20 20 7c 20 67 2e 2e 20 0a                   |    | g.. .      \n") (some (((host none).run { inputs := ["quick.txt"], width := "8,s+2..e-2" }).1)) = true := by decide +kernel
/-- README.md 498: `nd --width 8,s+2..e-2 quick.txt --out-format x` -/
example : prints { inputs := ["quick.txt"], width := "8,s+2..e-2", outFormat := "x" } (bytes! "000000000002 0004 | 65 20 71 75                                     | e qu            \n00000000000a 0004 | 62 72 6f 77                                     | brow            \n000000000012 0004 | 78 20 6a 75                                     | x ju            \n00000000001a 0004 | 6f 76 65 72                                     | over            \n000000000022 0004 | 20 6c 61 7a                                     |  laz            \n00000000002a 0003 | 67 2e 0a                                        | g..             \n") none = true := by decide +kernel
/-- README.md 505: `nd --width 8,s+2..e-2 quick.txt --out-format b` -/
example : prints { inputs := ["quick.txt"], width := "8,s+2..e-2", outFormat := "b" } (bytes! "e qubrowx juover lazg.\n") none = true := by decide +kernel
/-- README.md 514: `nd --filler 0xff --pad 4,4 quick.txt` -/
example : prints { inputs := ["quick.txt"], filler := "0xff", pad := "4,4" } (bytes! "000000000000 0010 | ff ff ff ff 54 68 65 20 71 75 69 63 6b 20 62 72 | ....The quick br\n000000000010 0010 | 6f 77 6e 20 66 6f 78 20 6a 75 6d 70 73 20 6f 76 | own fox jumps ov\n000000000020 0010 | 65 72 20 74 68 65 20 6c 61 7a 79 20 64 6f 67 2e | er the lazy dog.\n000000000030 0005 | 0a ff ff ff ff                                  | .....           \n") none = true := by decide +kernel
/-- README.md 519: `nd --width 8,s+2..e-2 quick.txt | nd --filler 0xff --in-format x` -/
example : prints { filler := "0xff", inFormat := "x" } (bytes! "000000000000 0010 | ff ff 65 20 71 75 ff ff ff ff 62 72 6f 77 ff ff | ..e qu....brow..\n000000000010 0010 | ff ff 78 20 6a 75 ff ff ff ff 6f 76 65 72 ff ff | ..x ju....over..\n000000000020 000d | ff ff 20 6c 61 7a ff ff ff ff 67 2e 0a          | .. laz....g..   \n") (some (((host none).run { inputs := ["quick.txt"], width := "8,s+2..e-2" }).1)) = true := by decide +kernel
/-- README.md 551: `nd --cut "s+4*5.." quick.txt` -/
example : prints { inputs := ["quick.txt"], cut := "s+4*5.." } (bytes! "000000000000 0010 | 6a 75 6d 70 73 20 6f 76 65 72 20 74 68 65 20 6c | jumps over the l\n000000000010 0009 | 61 7a 79 20 64 6f 67 2e 0a                      | azy dog..       \n") none = true := by decide +kernel
/-- README.md 554: `nd --cut "4..e - 20" quick.txt` -/
example : prints { inputs := ["quick.txt"], cut := "4..e - 20" } (bytes! "000000000000 0010 | 71 75 69 63 6b 20 62 72 6f 77 6e 20 66 6f 78 20 | quick brown fox \n000000000010 0005 | 6a 75 6d 70 73                                  | jumps           \n") none = true := by decide +kernel
/-- README.md 160: `nd --inplace --patch lazy.txt quick.txt` -/
example : edits { inputs := ["quick.txt"], inplace := true, patch := "lazy.txt" } [("quick.txt", bytes! "The quick brown fox jumps over the lazy dog.\n")]
    [("quick.txt", some (bytes! "The quick brown fox jumps over the lazy lazy dog.\n"))] = true := by decide +kernel
/-- README.md 415: `nd --output "dump_{n:02x}.txt" quick.txt` -/
example : writes { inputs := ["quick.txt"], output := "dump_{n:02x}.txt" }
    [("dump_00.txt", some (bytes! "000000000000 0010 | 54 68 65 20 71 75 69 63 6b 20 62 72 6f 77 6e 20 | The quick brown \n")), ("dump_30.txt", none)] = true := by decide +kernel
/-- README.md 425: `nd --width=4 --output "dump_{(l & 1)}.txt" quick.txt` -/
example : writes { inputs := ["quick.txt"], width := "4", output := "dump_{(l & 1)}.txt" }
    [("dump_0.txt", some (bytes! "000000000000 0004 | 54 68 65 20 | The \n000000000008 0004 | 6b 20 62 72 | k br\n000000000010 0004 | 66 6f 78 20 | fox \n000000000018 0004 | 73 20 6f 76 | s ov\n000000000020 0004 | 68 65 20 6c | he l\n000000000028 0004 | 64 6f 67 2e | dog.\n")),
     ("dump_2.txt", none)] = true := by decide +kernel
/-- README.md 448: `nd --find "6f" --patch-back "awk '{ printf \"%s %s | 4f 4f\n\", \$1, \$2 }'" quick.txt` -/
example : prints { inputs := ["quick.txt"], find := "6f", patchBack := "awk" } (bytes! "The quick brOOwn fOOx jumps OOver the lazy dOOg.\n") = true := by decide +kernel

end Nd.Conformance
