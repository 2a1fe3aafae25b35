import Verif.Basic

/-! # Tables of `src/v2.c` and of RFC 7541

`huffmanCodes` and `staticTable` are transcribed from the C source; `rfcLengths` and `rfcStatic` are
the RFC's (Appendix B code lengths, Appendix A entries) and belong to the specification. -/

namespace Fly.Hpack

/-- `huffman_codes`, src/v2.c:4222-4481: (symbol, code, length in bits), without the terminator. -/
def huffmanCodes : List (Nat × Nat × Nat) := [
  (48,0x0,5), (49,0x1,5), (50,0x2,5), (97,0x3,5), (99,0x4,5), (101,0x5,5),
  (105,0x6,5), (111,0x7,5), (115,0x8,5), (116,0x9,5), (32,0x14,6), (37,0x15,6),
  (45,0x16,6), (46,0x17,6), (47,0x18,6), (51,0x19,6), (52,0x1a,6), (53,0x1b,6),
  (54,0x1c,6), (55,0x1d,6), (56,0x1e,6), (57,0x1f,6), (61,0x20,6), (65,0x21,6),
  (95,0x22,6), (98,0x23,6), (100,0x24,6), (102,0x25,6), (103,0x26,6), (104,0x27,6),
  (108,0x28,6), (109,0x29,6), (110,0x2a,6), (112,0x2b,6), (114,0x2c,6), (117,0x2d,6),
  (58,0x5c,7), (66,0x5d,7), (67,0x5e,7), (68,0x5f,7), (69,0x60,7), (70,0x61,7),
  (71,0x62,7), (72,0x63,7), (73,0x64,7), (74,0x65,7), (75,0x66,7), (76,0x67,7),
  (77,0x68,7), (78,0x69,7), (79,0x6a,7), (80,0x6b,7), (81,0x6c,7), (82,0x6d,7),
  (83,0x6e,7), (84,0x6f,7), (85,0x70,7), (86,0x71,7), (87,0x72,7), (89,0x73,7),
  (106,0x74,7), (107,0x75,7), (113,0x76,7), (118,0x77,7), (119,0x78,7), (120,0x79,7),
  (121,0x7a,7), (122,0x7b,7), (38,0xf8,8), (42,0xf9,8), (44,0xfa,8), (59,0xfb,8),
  (88,0xfc,8), (90,0xfd,8), (33,0x3f8,10), (34,0x3f9,10), (40,0x3fa,10), (41,0x3fb,10),
  (63,0x3fc,10), (39,0x7fa,11), (43,0x7fb,11), (124,0x7fc,11), (35,0xffa,12), (62,0xffb,12),
  (0,0x1ff8,13), (36,0x1ff9,13), (64,0x1ffa,13), (91,0x1ffb,13), (93,0x1ffc,13), (126,0x1ffd,13),
  (94,0x3ffc,14), (125,0x3ffd,14), (60,0x7ffc,15), (96,0x7ffd,15), (123,0x7ffe,15), (92,0x7fff0,19),
  (195,0x7fff1,19), (208,0x7fff2,19), (128,0xfffe6,20), (130,0xfffe7,20), (131,0xfffe8,20), (162,0xfffe9,20),
  (184,0xfffea,20), (194,0xfffeb,20), (224,0xfffec,20), (226,0xfffed,20), (153,0x1fffdc,21), (161,0x1fffdd,21),
  (167,0x1fffde,21), (172,0x1fffdf,21), (176,0x1fffe0,21), (177,0x1fffe1,21), (179,0x1fffe2,21), (209,0x1fffe3,21),
  (216,0x1fffe4,21), (217,0x1fffe5,21), (227,0x1fffe6,21), (229,0x1fffe7,21), (230,0x1fffe8,21), (129,0x3fffd2,22),
  (132,0x3fffd3,22), (133,0x3fffd4,22), (134,0x3fffd5,22), (136,0x3fffd6,22), (146,0x3fffd7,22), (154,0x3fffd8,22),
  (156,0x3fffd9,22), (160,0x3fffda,22), (163,0x3fffdb,22), (164,0x3fffdc,22), (169,0x3fffdd,22), (170,0x3fffde,22),
  (173,0x3fffdf,22), (178,0x3fffe0,22), (181,0x3fffe1,22), (185,0x3fffe2,22), (186,0x3fffe3,22), (187,0x3fffe4,22),
  (189,0x3fffe5,22), (190,0x3fffe6,22), (196,0x3fffe7,22), (198,0x3fffe8,22), (228,0x3fffe9,22), (232,0x3fffea,22),
  (233,0x3fffeb,22), (1,0x7fffd8,23), (135,0x7fffd9,23), (137,0x7fffda,23), (138,0x7fffdb,23), (139,0x7fffdc,23),
  (140,0x7fffdd,23), (141,0x7fffde,23), (143,0x7fffdf,23), (147,0x7fffe0,23), (149,0x7fffe1,23), (150,0x7fffe2,23),
  (151,0x7fffe3,23), (152,0x7fffe4,23), (155,0x7fffe5,23), (157,0x7fffe6,23), (158,0x7fffe7,23), (165,0x7fffe8,23),
  (166,0x7fffe9,23), (168,0x7fffea,23), (174,0x7fffeb,23), (175,0x7fffec,23), (180,0x7fffed,23), (182,0x7fffee,23),
  (183,0x7fffef,23), (188,0x7ffff0,23), (191,0x7ffff1,23), (197,0x7ffff2,23), (231,0x7ffff3,23), (239,0x7ffff4,23),
  (9,0xffffea,24), (142,0xffffeb,24), (144,0xffffec,24), (145,0xffffed,24), (148,0xffffee,24), (159,0xffffef,24),
  (171,0xfffff0,24), (206,0xfffff1,24), (215,0xfffff2,24), (225,0xfffff3,24), (236,0xfffff4,24), (237,0xfffff5,24),
  (199,0x1ffffec,25), (207,0x1ffffed,25), (234,0x1ffffee,25), (235,0x1ffffef,25), (192,0x3ffffe0,26), (193,0x3ffffe1,26),
  (200,0x3ffffe2,26), (201,0x3ffffe3,26), (202,0x3ffffe4,26), (205,0x3ffffe5,26), (210,0x3ffffe6,26), (213,0x3ffffe7,26),
  (218,0x3ffffe8,26), (219,0x3ffffe9,26), (238,0x3ffffea,26), (240,0x3ffffeb,26), (242,0x3ffffec,26), (243,0x3ffffed,26),
  (255,0x3ffffee,26), (203,0x7ffffde,27), (204,0x7ffffdf,27), (211,0x7ffffe0,27), (212,0x7ffffe1,27), (214,0x7ffffe2,27),
  (221,0x7ffffe3,27), (222,0x7ffffe4,27), (223,0x7ffffe5,27), (241,0x7ffffe6,27), (244,0x7ffffe7,27), (245,0x7ffffe8,27),
  (246,0x7ffffe9,27), (247,0x7ffffea,27), (248,0x7ffffeb,27), (250,0x7ffffec,27), (251,0x7ffffed,27), (252,0x7ffffee,27),
  (253,0x7ffffef,27), (254,0x7fffff0,27), (2,0xfffffe2,28), (3,0xfffffe3,28), (4,0xfffffe4,28), (5,0xfffffe5,28),
  (6,0xfffffe6,28), (7,0xfffffe7,28), (8,0xfffffe8,28), (11,0xfffffe9,28), (12,0xfffffea,28), (14,0xfffffeb,28),
  (15,0xfffffec,28), (16,0xfffffed,28), (17,0xfffffee,28), (18,0xfffffef,28), (19,0xffffff0,28), (20,0xffffff1,28),
  (21,0xffffff2,28), (23,0xffffff3,28), (24,0xffffff4,28), (25,0xffffff5,28), (26,0xffffff6,28), (27,0xffffff7,28),
  (28,0xffffff8,28), (29,0xffffff9,28), (30,0xffffffa,28), (31,0xffffffb,28), (127,0xffffffc,28), (220,0xffffffd,28),
  (249,0xffffffe,28), (10,0x3ffffffc,30), (13,0x3ffffefd,30), (22,0x3ffffffe,30), (256,0x3fffffff,30)]

/-- `static_table`, src/v2.c:3552-3614: name and value (`NULL` is `none`). -/
def staticTable : List (Bytes × Option Bytes) := [
  (b!":authority", none),
  (b!":method", some b!"GET"),
  (b!":method", some b!"POST"),
  (b!":path", some b!"/"),
  (b!":path", some b!"/index.html"),
  (b!":scheme", some b!"http"),
  (b!":scheme", some b!"https"),
  (b!":status", some b!"200"),
  (b!":status", some b!"204"),
  (b!":status", some b!"206"),
  (b!":status", some b!"304"),
  (b!":status", some b!"400"),
  (b!":status", some b!"404"),
  (b!":status", some b!"500"),
  (b!"accept-charset", none),
  (b!"accept-encoding", none),
  (b!"accept-language", some b!"gzip, deflate"),
  (b!"accept-ranges", none),
  (b!"accept", none),
  (b!"access-control-allow-origin", none),
  (b!"age", none),
  (b!"allow", none),
  (b!"authorization", none),
  (b!"cache-control", none),
  (b!"content-disposition", none),
  (b!"content-encoding", none),
  (b!"content-language", none),
  (b!"content-length", none),
  (b!"content-location", none),
  (b!"content-range", none),
  (b!"content-type", none),
  (b!"cookie", none),
  (b!"date", none),
  (b!"etag", none),
  (b!"expect", none),
  (b!"expires", none),
  (b!"from", none),
  (b!"host", none),
  (b!"if-match", none),
  (b!"if-modified-since", none),
  (b!"if-none-matcho", none),
  (b!"if-range", none),
  (b!"if-unmodified-since", none),
  (b!"last-modified", none),
  (b!"link", none),
  (b!"location", none),
  (b!"max-forwards", none),
  (b!"proxy-authenticate", none),
  (b!"proxy-authorization", none),
  (b!"range", none),
  (b!"referer", none),
  (b!"refresh", none),
  (b!"retry-after", none),
  (b!"server", none),
  (b!"set-cookie", none),
  (b!"strict-transport-security", none),
  (b!"transfer-encoding", none),
  (b!"user-agent", none),
  (b!"vary", none),
  (b!"via", none),
  (b!"www-authenticate", none)]

/-- RFC 7541 Appendix A, entries 1..61. -/
def rfcStatic : List (Bytes × Bytes) := [
  (b!":authority", []),
  (b!":method", b!"GET"),
  (b!":method", b!"POST"),
  (b!":path", b!"/"),
  (b!":path", b!"/index.html"),
  (b!":scheme", b!"http"),
  (b!":scheme", b!"https"),
  (b!":status", b!"200"),
  (b!":status", b!"204"),
  (b!":status", b!"206"),
  (b!":status", b!"304"),
  (b!":status", b!"400"),
  (b!":status", b!"404"),
  (b!":status", b!"500"),
  (b!"accept-charset", []),
  (b!"accept-encoding", b!"gzip, deflate"),
  (b!"accept-language", []),
  (b!"accept-ranges", []),
  (b!"accept", []),
  (b!"access-control-allow-origin", []),
  (b!"age", []),
  (b!"allow", []),
  (b!"authorization", []),
  (b!"cache-control", []),
  (b!"content-disposition", []),
  (b!"content-encoding", []),
  (b!"content-language", []),
  (b!"content-length", []),
  (b!"content-location", []),
  (b!"content-range", []),
  (b!"content-type", []),
  (b!"cookie", []),
  (b!"date", []),
  (b!"etag", []),
  (b!"expect", []),
  (b!"expires", []),
  (b!"from", []),
  (b!"host", []),
  (b!"if-match", []),
  (b!"if-modified-since", []),
  (b!"if-none-match", []),
  (b!"if-range", []),
  (b!"if-unmodified-since", []),
  (b!"last-modified", []),
  (b!"link", []),
  (b!"location", []),
  (b!"max-forwards", []),
  (b!"proxy-authenticate", []),
  (b!"proxy-authorization", []),
  (b!"range", []),
  (b!"referer", []),
  (b!"refresh", []),
  (b!"retry-after", []),
  (b!"server", []),
  (b!"set-cookie", []),
  (b!"strict-transport-security", []),
  (b!"transfer-encoding", []),
  (b!"user-agent", []),
  (b!"vary", []),
  (b!"via", []),
  (b!"www-authenticate", [])]

/-- RFC 7541 Appendix B: code lengths in bits of the symbols 0..255 and EOS. -/
def rfcLengths : List Nat := [
  13, 23, 28, 28, 28, 28, 28, 28, 28, 24, 30, 28, 28, 30, 28, 28, 28, 28, 28, 28, 28, 28, 30, 28, 28, 28, 28, 28, 28, 28, 28, 28,
  6, 10, 10, 12, 13, 6, 8, 11, 10, 10, 8, 11, 8, 6, 6, 6, 5, 5, 5, 6, 6, 6, 6, 6, 6, 6, 7, 8, 15, 6, 12, 10,
  13, 6, 7, 7, 7, 7, 7, 7, 7, 7, 7, 7, 7, 7, 7, 7, 7, 7, 7, 7, 7, 7, 7, 7, 8, 7, 8, 13, 19, 13, 14, 6,
  15, 5, 6, 5, 6, 5, 6, 6, 6, 5, 7, 7, 6, 6, 6, 5, 6, 7, 6, 5, 5, 6, 7, 7, 7, 7, 7, 15, 11, 14, 13, 28,
  20, 22, 20, 20, 22, 22, 22, 23, 22, 23, 23, 23, 23, 23, 24, 23, 24, 24, 22, 23, 24, 23, 23, 23, 23, 21, 22, 23, 22, 23, 23, 24,
  22, 21, 20, 22, 22, 23, 23, 21, 23, 22, 22, 24, 21, 22, 23, 23, 21, 21, 22, 21, 23, 22, 23, 23, 20, 22, 22, 22, 23, 22, 22, 23,
  26, 26, 20, 19, 22, 23, 22, 25, 26, 26, 26, 27, 27, 26, 24, 25, 19, 21, 26, 27, 27, 26, 27, 24, 21, 21, 26, 26, 28, 27, 27, 27,
  20, 24, 20, 21, 22, 21, 21, 23, 22, 22, 25, 25, 24, 24, 26, 23, 26, 27, 26, 26, 27, 27, 27, 27, 27, 28, 27, 27, 27, 27, 27, 26,
  30]

end Fly.Hpack
