import Verif.Model.PyStr

/-!
# The entity table

Generated by `tools/gen_entities.py` from `kajiki/entities.py` 46-2278, in the same order.
Keys and values are given as code points, with the key as text in a comment.
-/

namespace Kajiki

/-- Entries 0.. of `html5` (`kajiki/entities.py` 46-2278). -/
def html5Chunk0 : List (List Nat × List Nat) := [
  ([65, 97, 99, 117, 116, 101], [0xc1]), -- Aacute
  ([97, 97, 99, 117, 116, 101], [0xe1]), -- aacute
  ([65, 97, 99, 117, 116, 101, 59], [0xc1]), -- Aacute;
  ([97, 97, 99, 117, 116, 101, 59], [0xe1]), -- aacute;
  ([65, 98, 114, 101, 118, 101, 59], [0x102]), -- Abreve;
  ([97, 98, 114, 101, 118, 101, 59], [0x103]), -- abreve;
  ([97, 99, 59], [0x223e]), -- ac;
  ([97, 99, 100, 59], [0x223f]), -- acd;
  ([97, 99, 69, 59], [0x223e, 0x333]), -- acE;
  ([65, 99, 105, 114, 99], [0xc2]), -- Acirc
  ([97, 99, 105, 114, 99], [0xe2]), -- acirc
  ([65, 99, 105, 114, 99, 59], [0xc2]), -- Acirc;
  ([97, 99, 105, 114, 99, 59], [0xe2]), -- acirc;
  ([97, 99, 117, 116, 101], [0xb4]), -- acute
  ([97, 99, 117, 116, 101, 59], [0xb4]), -- acute;
  ([65, 99, 121, 59], [0x410]), -- Acy;
  ([97, 99, 121, 59], [0x430]), -- acy;
  ([65, 69, 108, 105, 103], [0xc6]), -- AElig
  ([97, 101, 108, 105, 103], [0xe6]), -- aelig
  ([65, 69, 108, 105, 103, 59], [0xc6]), -- AElig;
  ([97, 101, 108, 105, 103, 59], [0xe6]), -- aelig;
  ([97, 102, 59], [0x2061]), -- af;
  ([65, 102, 114, 59], [0x1d504]), -- Afr;
  ([97, 102, 114, 59], [0x1d51e]), -- afr;
  ([65, 103, 114, 97, 118, 101], [0xc0]), -- Agrave
  ([97, 103, 114, 97, 118, 101], [0xe0]), -- agrave
  ([65, 103, 114, 97, 118, 101, 59], [0xc0]), -- Agrave;
  ([97, 103, 114, 97, 118, 101, 59], [0xe0]), -- agrave;
  ([97, 108, 101, 102, 115, 121, 109, 59], [0x2135]), -- alefsym;
  ([97, 108, 101, 112, 104, 59], [0x2135]), -- aleph;
  ([65, 108, 112, 104, 97, 59], [0x391]), -- Alpha;
  ([97, 108, 112, 104, 97, 59], [0x3b1]), -- alpha;
  ([65, 109, 97, 99, 114, 59], [0x100]), -- Amacr;
  ([97, 109, 97, 99, 114, 59], [0x101]), -- amacr;
  ([97, 109, 97, 108, 103, 59], [0x2a3f]), -- amalg;
  ([65, 77, 80], [0x26]), -- AMP
  ([97, 109, 112], [0x26]), -- amp
  ([65, 77, 80, 59], [0x26]), -- AMP;
  ([97, 109, 112, 59], [0x26]), -- amp;
  ([65, 110, 100, 59], [0x2a53]), -- And;
  ([97, 110, 100, 59], [0x2227]), -- and;
  ([97, 110, 100, 97, 110, 100, 59], [0x2a55]), -- andand;
  ([97, 110, 100, 100, 59], [0x2a5c]), -- andd;
  ([97, 110, 100, 115, 108, 111, 112, 101, 59], [0x2a58]), -- andslope;
  ([97, 110, 100, 118, 59], [0x2a5a]), -- andv;
  ([97, 110, 103, 59], [0x2220]), -- ang;
  ([97, 110, 103, 101, 59], [0x29a4]), -- ange;
  ([97, 110, 103, 108, 101, 59], [0x2220]), -- angle;
  ([97, 110, 103, 109, 115, 100, 59], [0x2221]), -- angmsd;
  ([97, 110, 103, 109, 115, 100, 97, 97, 59], [0x29a8]), -- angmsdaa;
  ([97, 110, 103, 109, 115, 100, 97, 98, 59], [0x29a9]), -- angmsdab;
  ([97, 110, 103, 109, 115, 100, 97, 99, 59], [0x29aa]), -- angmsdac;
  ([97, 110, 103, 109, 115, 100, 97, 100, 59], [0x29ab]), -- angmsdad;
  ([97, 110, 103, 109, 115, 100, 97, 101, 59], [0x29ac]), -- angmsdae;
  ([97, 110, 103, 109, 115, 100, 97, 102, 59], [0x29ad]), -- angmsdaf;
  ([97, 110, 103, 109, 115, 100, 97, 103, 59], [0x29ae]), -- angmsdag;
  ([97, 110, 103, 109, 115, 100, 97, 104, 59], [0x29af]), -- angmsdah;
  ([97, 110, 103, 114, 116, 59], [0x221f]), -- angrt;
  ([97, 110, 103, 114, 116, 118, 98, 59], [0x22be]), -- angrtvb;
  ([97, 110, 103, 114, 116, 118, 98, 100, 59], [0x299d]), -- angrtvbd;
  ([97, 110, 103, 115, 112, 104, 59], [0x2222]), -- angsph;
  ([97, 110, 103, 115, 116, 59], [0xc5]), -- angst;
  ([97, 110, 103, 122, 97, 114, 114, 59], [0x237c]), -- angzarr;
  ([65, 111, 103, 111, 110, 59], [0x104]), -- Aogon;
  ([97, 111, 103, 111, 110, 59], [0x105]), -- aogon;
  ([65, 111, 112, 102, 59], [0x1d538]), -- Aopf;
  ([97, 111, 112, 102, 59], [0x1d552]), -- aopf;
  ([97, 112, 59], [0x2248]), -- ap;
  ([97, 112, 97, 99, 105, 114, 59], [0x2a6f]), -- apacir;
  ([97, 112, 69, 59], [0x2a70]), -- apE;
  ([97, 112, 101, 59], [0x224a]), -- ape;
  ([97, 112, 105, 100, 59], [0x224b]), -- apid;
  ([97, 112, 111, 115, 59], [0x27]), -- apos;
  ([65, 112, 112, 108, 121, 70, 117, 110, 99, 116, 105, 111, 110, 59], [0x2061]), -- ApplyFunction;
  ([97, 112, 112, 114, 111, 120, 59], [0x2248]), -- approx;
  ([97, 112, 112, 114, 111, 120, 101, 113, 59], [0x224a]), -- approxeq;
  ([65, 114, 105, 110, 103], [0xc5]), -- Aring
  ([97, 114, 105, 110, 103], [0xe5]), -- aring
  ([65, 114, 105, 110, 103, 59], [0xc5]), -- Aring;
  ([97, 114, 105, 110, 103, 59], [0xe5]), -- aring;
  ([65, 115, 99, 114, 59], [0x1d49c]), -- Ascr;
  ([97, 115, 99, 114, 59], [0x1d4b6]), -- ascr;
  ([65, 115, 115, 105, 103, 110, 59], [0x2254]), -- Assign;
  ([97, 115, 116, 59], [0x2a]), -- ast;
  ([97, 115, 121, 109, 112, 59], [0x2248]), -- asymp;
  ([97, 115, 121, 109, 112, 101, 113, 59], [0x224d]), -- asympeq;
  ([65, 116, 105, 108, 100, 101], [0xc3]), -- Atilde
  ([97, 116, 105, 108, 100, 101], [0xe3]), -- atilde
  ([65, 116, 105, 108, 100, 101, 59], [0xc3]), -- Atilde;
  ([97, 116, 105, 108, 100, 101, 59], [0xe3]), -- atilde;
  ([65, 117, 109, 108], [0xc4]), -- Auml
  ([97, 117, 109, 108], [0xe4]), -- auml
  ([65, 117, 109, 108, 59], [0xc4]), -- Auml;
  ([97, 117, 109, 108, 59], [0xe4]), -- auml;
  ([97, 119, 99, 111, 110, 105, 110, 116, 59], [0x2233]), -- awconint;
  ([97, 119, 105, 110, 116, 59], [0x2a11]), -- awint;
  ([98, 97, 99, 107, 99, 111, 110, 103, 59], [0x224c]), -- backcong;
  ([98, 97, 99, 107, 101, 112, 115, 105, 108, 111, 110, 59], [0x3f6]), -- backepsilon;
  ([98, 97, 99, 107, 112, 114, 105, 109, 101, 59], [0x2035]), -- backprime;
  ([98, 97, 99, 107, 115, 105, 109, 59], [0x223d]), -- backsim;
  ([98, 97, 99, 107, 115, 105, 109, 101, 113, 59], [0x22cd]), -- backsimeq;
  ([66, 97, 99, 107, 115, 108, 97, 115, 104, 59], [0x2216]), -- Backslash;
  ([66, 97, 114, 118, 59], [0x2ae7]), -- Barv;
  ([98, 97, 114, 118, 101, 101, 59], [0x22bd]), -- barvee;
  ([66, 97, 114, 119, 101, 100, 59], [0x2306]), -- Barwed;
  ([98, 97, 114, 119, 101, 100, 59], [0x2305]), -- barwed;
  ([98, 97, 114, 119, 101, 100, 103, 101, 59], [0x2305]), -- barwedge;
  ([98, 98, 114, 107, 59], [0x23b5]), -- bbrk;
  ([98, 98, 114, 107, 116, 98, 114, 107, 59], [0x23b6]), -- bbrktbrk;
  ([98, 99, 111, 110, 103, 59], [0x224c]), -- bcong;
  ([66, 99, 121, 59], [0x411]), -- Bcy;
  ([98, 99, 121, 59], [0x431]), -- bcy;
  ([98, 100, 113, 117, 111, 59], [0x201e]), -- bdquo;
  ([98, 101, 99, 97, 117, 115, 59], [0x2235]), -- becaus;
  ([66, 101, 99, 97, 117, 115, 101, 59], [0x2235]), -- Because;
  ([98, 101, 99, 97, 117, 115, 101, 59], [0x2235]), -- because;
  ([98, 101, 109, 112, 116, 121, 118, 59], [0x29b0]), -- bemptyv;
  ([98, 101, 112, 115, 105, 59], [0x3f6]), -- bepsi;
  ([98, 101, 114, 110, 111, 117, 59], [0x212c]), -- bernou;
  ([66, 101, 114, 110, 111, 117, 108, 108, 105, 115, 59], [0x212c]), -- Bernoullis;
  ([66, 101, 116, 97, 59], [0x392]), -- Beta;
  ([98, 101, 116, 97, 59], [0x3b2]), -- beta;
  ([98, 101, 116, 104, 59], [0x2136]), -- beth;
  ([98, 101, 116, 119, 101, 101, 110, 59], [0x226c]), -- between;
  ([66, 102, 114, 59], [0x1d505]), -- Bfr;
  ([98, 102, 114, 59], [0x1d51f]), -- bfr;
  ([98, 105, 103, 99, 97, 112, 59], [0x22c2]), -- bigcap;
  ([98, 105, 103, 99, 105, 114, 99, 59], [0x25ef]), -- bigcirc;
  ([98, 105, 103, 99, 117, 112, 59], [0x22c3]), -- bigcup;
  ([98, 105, 103, 111, 100, 111, 116, 59], [0x2a00]), -- bigodot;
  ([98, 105, 103, 111, 112, 108, 117, 115, 59], [0x2a01]), -- bigoplus;
  ([98, 105, 103, 111, 116, 105, 109, 101, 115, 59], [0x2a02]), -- bigotimes;
  ([98, 105, 103, 115, 113, 99, 117, 112, 59], [0x2a06]), -- bigsqcup;
  ([98, 105, 103, 115, 116, 97, 114, 59], [0x2605]), -- bigstar;
  ([98, 105, 103, 116, 114, 105, 97, 110, 103, 108, 101, 100, 111, 119, 110, 59], [0x25bd]), -- bigtriangledown;
  ([98, 105, 103, 116, 114, 105, 97, 110, 103, 108, 101, 117, 112, 59], [0x25b3]), -- bigtriangleup;
  ([98, 105, 103, 117, 112, 108, 117, 115, 59], [0x2a04]), -- biguplus;
  ([98, 105, 103, 118, 101, 101, 59], [0x22c1]), -- bigvee;
  ([98, 105, 103, 119, 101, 100, 103, 101, 59], [0x22c0]), -- bigwedge;
  ([98, 107, 97, 114, 111, 119, 59], [0x290d]), -- bkarow;
  ([98, 108, 97, 99, 107, 108, 111, 122, 101, 110, 103, 101, 59], [0x29eb]), -- blacklozenge;
  ([98, 108, 97, 99, 107, 115, 113, 117, 97, 114, 101, 59], [0x25aa]), -- blacksquare;
  ([98, 108, 97, 99, 107, 116, 114, 105, 97, 110, 103, 108, 101, 59], [0x25b4]), -- blacktriangle;
  ([98, 108, 97, 99, 107, 116, 114, 105, 97, 110, 103, 108, 101, 100, 111, 119, 110, 59], [0x25be]), -- blacktriangledown;
  ([98, 108, 97, 99, 107, 116, 114, 105, 97, 110, 103, 108, 101, 108, 101, 102, 116, 59], [0x25c2]), -- blacktriangleleft;
  ([98, 108, 97, 99, 107, 116, 114, 105, 97, 110, 103, 108, 101, 114, 105, 103, 104, 116, 59], [0x25b8]), -- blacktriangleright;
  ([98, 108, 97, 110, 107, 59], [0x2423]), -- blank;
  ([98, 108, 107, 49, 50, 59], [0x2592]), -- blk12;
  ([98, 108, 107, 49, 52, 59], [0x2591]), -- blk14;
  ([98, 108, 107, 51, 52, 59], [0x2593]), -- blk34;
  ([98, 108, 111, 99, 107, 59], [0x2588]), -- block;
  ([98, 110, 101, 59], [0x3d, 0x20e5]), -- bne;
  ([98, 110, 101, 113, 117, 105, 118, 59], [0x2261, 0x20e5]), -- bnequiv;
  ([98, 78, 111, 116, 59], [0x2aed]), -- bNot;
  ([98, 110, 111, 116, 59], [0x2310]), -- bnot;
  ([66, 111, 112, 102, 59], [0x1d539]), -- Bopf;
  ([98, 111, 112, 102, 59], [0x1d553]), -- bopf;
  ([98, 111, 116, 59], [0x22a5]), -- bot;
  ([98, 111, 116, 116, 111, 109, 59], [0x22a5]), -- bottom;
  ([98, 111, 119, 116, 105, 101, 59], [0x22c8]), -- bowtie;
  ([98, 111, 120, 98, 111, 120, 59], [0x29c9]), -- boxbox;
  ([98, 111, 120, 68, 76, 59], [0x2557]), -- boxDL;
  ([98, 111, 120, 68, 108, 59], [0x2556]), -- boxDl;
  ([98, 111, 120, 100, 76, 59], [0x2555]), -- boxdL;
  ([98, 111, 120, 100, 108, 59], [0x2510]), -- boxdl;
  ([98, 111, 120, 68, 82, 59], [0x2554]), -- boxDR;
  ([98, 111, 120, 68, 114, 59], [0x2553]), -- boxDr;
  ([98, 111, 120, 100, 82, 59], [0x2552]), -- boxdR;
  ([98, 111, 120, 100, 114, 59], [0x250c]), -- boxdr;
  ([98, 111, 120, 72, 59], [0x2550]), -- boxH;
  ([98, 111, 120, 104, 59], [0x2500]), -- boxh;
  ([98, 111, 120, 72, 68, 59], [0x2566]), -- boxHD;
  ([98, 111, 120, 72, 100, 59], [0x2564]), -- boxHd;
  ([98, 111, 120, 104, 68, 59], [0x2565]), -- boxhD;
  ([98, 111, 120, 104, 100, 59], [0x252c]), -- boxhd;
  ([98, 111, 120, 72, 85, 59], [0x2569]), -- boxHU;
  ([98, 111, 120, 72, 117, 59], [0x2567]), -- boxHu;
  ([98, 111, 120, 104, 85, 59], [0x2568]), -- boxhU;
  ([98, 111, 120, 104, 117, 59], [0x2534]), -- boxhu;
  ([98, 111, 120, 109, 105, 110, 117, 115, 59], [0x229f]), -- boxminus;
  ([98, 111, 120, 112, 108, 117, 115, 59], [0x229e]), -- boxplus;
  ([98, 111, 120, 116, 105, 109, 101, 115, 59], [0x22a0]), -- boxtimes;
  ([98, 111, 120, 85, 76, 59], [0x255d]), -- boxUL;
  ([98, 111, 120, 85, 108, 59], [0x255c]), -- boxUl;
  ([98, 111, 120, 117, 76, 59], [0x255b]), -- boxuL;
  ([98, 111, 120, 117, 108, 59], [0x2518]), -- boxul;
  ([98, 111, 120, 85, 82, 59], [0x255a]), -- boxUR;
  ([98, 111, 120, 85, 114, 59], [0x2559]), -- boxUr;
  ([98, 111, 120, 117, 82, 59], [0x2558]), -- boxuR;
  ([98, 111, 120, 117, 114, 59], [0x2514]), -- boxur;
  ([98, 111, 120, 86, 59], [0x2551]), -- boxV;
  ([98, 111, 120, 118, 59], [0x2502]), -- boxv;
  ([98, 111, 120, 86, 72, 59], [0x256c]), -- boxVH;
  ([98, 111, 120, 86, 104, 59], [0x256b]), -- boxVh;
  ([98, 111, 120, 118, 72, 59], [0x256a]), -- boxvH;
  ([98, 111, 120, 118, 104, 59], [0x253c]), -- boxvh;
  ([98, 111, 120, 86, 76, 59], [0x2563]), -- boxVL;
  ([98, 111, 120, 86, 108, 59], [0x2562]), -- boxVl;
  ([98, 111, 120, 118, 76, 59], [0x2561]), -- boxvL;
  ([98, 111, 120, 118, 108, 59], [0x2524])] -- boxvl;

/-- Entries 200.. of `html5` (`kajiki/entities.py` 46-2278). -/
def html5Chunk1 : List (List Nat × List Nat) := [
  ([98, 111, 120, 86, 82, 59], [0x2560]), -- boxVR;
  ([98, 111, 120, 86, 114, 59], [0x255f]), -- boxVr;
  ([98, 111, 120, 118, 82, 59], [0x255e]), -- boxvR;
  ([98, 111, 120, 118, 114, 59], [0x251c]), -- boxvr;
  ([98, 112, 114, 105, 109, 101, 59], [0x2035]), -- bprime;
  ([66, 114, 101, 118, 101, 59], [0x2d8]), -- Breve;
  ([98, 114, 101, 118, 101, 59], [0x2d8]), -- breve;
  ([98, 114, 118, 98, 97, 114], [0xa6]), -- brvbar
  ([98, 114, 118, 98, 97, 114, 59], [0xa6]), -- brvbar;
  ([66, 115, 99, 114, 59], [0x212c]), -- Bscr;
  ([98, 115, 99, 114, 59], [0x1d4b7]), -- bscr;
  ([98, 115, 101, 109, 105, 59], [0x204f]), -- bsemi;
  ([98, 115, 105, 109, 59], [0x223d]), -- bsim;
  ([98, 115, 105, 109, 101, 59], [0x22cd]), -- bsime;
  ([98, 115, 111, 108, 59], [0x5c]), -- bsol;
  ([98, 115, 111, 108, 98, 59], [0x29c5]), -- bsolb;
  ([98, 115, 111, 108, 104, 115, 117, 98, 59], [0x27c8]), -- bsolhsub;
  ([98, 117, 108, 108, 59], [0x2022]), -- bull;
  ([98, 117, 108, 108, 101, 116, 59], [0x2022]), -- bullet;
  ([98, 117, 109, 112, 59], [0x224e]), -- bump;
  ([98, 117, 109, 112, 69, 59], [0x2aae]), -- bumpE;
  ([98, 117, 109, 112, 101, 59], [0x224f]), -- bumpe;
  ([66, 117, 109, 112, 101, 113, 59], [0x224e]), -- Bumpeq;
  ([98, 117, 109, 112, 101, 113, 59], [0x224f]), -- bumpeq;
  ([67, 97, 99, 117, 116, 101, 59], [0x106]), -- Cacute;
  ([99, 97, 99, 117, 116, 101, 59], [0x107]), -- cacute;
  ([67, 97, 112, 59], [0x22d2]), -- Cap;
  ([99, 97, 112, 59], [0x2229]), -- cap;
  ([99, 97, 112, 97, 110, 100, 59], [0x2a44]), -- capand;
  ([99, 97, 112, 98, 114, 99, 117, 112, 59], [0x2a49]), -- capbrcup;
  ([99, 97, 112, 99, 97, 112, 59], [0x2a4b]), -- capcap;
  ([99, 97, 112, 99, 117, 112, 59], [0x2a47]), -- capcup;
  ([99, 97, 112, 100, 111, 116, 59], [0x2a40]), -- capdot;
  ([67, 97, 112, 105, 116, 97, 108, 68, 105, 102, 102, 101, 114, 101, 110, 116, 105, 97, 108, 68, 59], [0x2145]), -- CapitalDifferentialD;
  ([99, 97, 112, 115, 59], [0x2229, 0xfe00]), -- caps;
  ([99, 97, 114, 101, 116, 59], [0x2041]), -- caret;
  ([99, 97, 114, 111, 110, 59], [0x2c7]), -- caron;
  ([67, 97, 121, 108, 101, 121, 115, 59], [0x212d]), -- Cayleys;
  ([99, 99, 97, 112, 115, 59], [0x2a4d]), -- ccaps;
  ([67, 99, 97, 114, 111, 110, 59], [0x10c]), -- Ccaron;
  ([99, 99, 97, 114, 111, 110, 59], [0x10d]), -- ccaron;
  ([67, 99, 101, 100, 105, 108], [0xc7]), -- Ccedil
  ([99, 99, 101, 100, 105, 108], [0xe7]), -- ccedil
  ([67, 99, 101, 100, 105, 108, 59], [0xc7]), -- Ccedil;
  ([99, 99, 101, 100, 105, 108, 59], [0xe7]), -- ccedil;
  ([67, 99, 105, 114, 99, 59], [0x108]), -- Ccirc;
  ([99, 99, 105, 114, 99, 59], [0x109]), -- ccirc;
  ([67, 99, 111, 110, 105, 110, 116, 59], [0x2230]), -- Cconint;
  ([99, 99, 117, 112, 115, 59], [0x2a4c]), -- ccups;
  ([99, 99, 117, 112, 115, 115, 109, 59], [0x2a50]), -- ccupssm;
  ([67, 100, 111, 116, 59], [0x10a]), -- Cdot;
  ([99, 100, 111, 116, 59], [0x10b]), -- cdot;
  ([99, 101, 100, 105, 108], [0xb8]), -- cedil
  ([99, 101, 100, 105, 108, 59], [0xb8]), -- cedil;
  ([67, 101, 100, 105, 108, 108, 97, 59], [0xb8]), -- Cedilla;
  ([99, 101, 109, 112, 116, 121, 118, 59], [0x29b2]), -- cemptyv;
  ([99, 101, 110, 116], [0xa2]), -- cent
  ([99, 101, 110, 116, 59], [0xa2]), -- cent;
  ([67, 101, 110, 116, 101, 114, 68, 111, 116, 59], [0xb7]), -- CenterDot;
  ([99, 101, 110, 116, 101, 114, 100, 111, 116, 59], [0xb7]), -- centerdot;
  ([67, 102, 114, 59], [0x212d]), -- Cfr;
  ([99, 102, 114, 59], [0x1d520]), -- cfr;
  ([67, 72, 99, 121, 59], [0x427]), -- CHcy;
  ([99, 104, 99, 121, 59], [0x447]), -- chcy;
  ([99, 104, 101, 99, 107, 59], [0x2713]), -- check;
  ([99, 104, 101, 99, 107, 109, 97, 114, 107, 59], [0x2713]), -- checkmark;
  ([67, 104, 105, 59], [0x3a7]), -- Chi;
  ([99, 104, 105, 59], [0x3c7]), -- chi;
  ([99, 105, 114, 59], [0x25cb]), -- cir;
  ([99, 105, 114, 99, 59], [0x2c6]), -- circ;
  ([99, 105, 114, 99, 101, 113, 59], [0x2257]), -- circeq;
  ([99, 105, 114, 99, 108, 101, 97, 114, 114, 111, 119, 108, 101, 102, 116, 59], [0x21ba]), -- circlearrowleft;
  ([99, 105, 114, 99, 108, 101, 97, 114, 114, 111, 119, 114, 105, 103, 104, 116, 59], [0x21bb]), -- circlearrowright;
  ([99, 105, 114, 99, 108, 101, 100, 97, 115, 116, 59], [0x229b]), -- circledast;
  ([99, 105, 114, 99, 108, 101, 100, 99, 105, 114, 99, 59], [0x229a]), -- circledcirc;
  ([99, 105, 114, 99, 108, 101, 100, 100, 97, 115, 104, 59], [0x229d]), -- circleddash;
  ([67, 105, 114, 99, 108, 101, 68, 111, 116, 59], [0x2299]), -- CircleDot;
  ([99, 105, 114, 99, 108, 101, 100, 82, 59], [0xae]), -- circledR;
  ([99, 105, 114, 99, 108, 101, 100, 83, 59], [0x24c8]), -- circledS;
  ([67, 105, 114, 99, 108, 101, 77, 105, 110, 117, 115, 59], [0x2296]), -- CircleMinus;
  ([67, 105, 114, 99, 108, 101, 80, 108, 117, 115, 59], [0x2295]), -- CirclePlus;
  ([67, 105, 114, 99, 108, 101, 84, 105, 109, 101, 115, 59], [0x2297]), -- CircleTimes;
  ([99, 105, 114, 69, 59], [0x29c3]), -- cirE;
  ([99, 105, 114, 101, 59], [0x2257]), -- cire;
  ([99, 105, 114, 102, 110, 105, 110, 116, 59], [0x2a10]), -- cirfnint;
  ([99, 105, 114, 109, 105, 100, 59], [0x2aef]), -- cirmid;
  ([99, 105, 114, 115, 99, 105, 114, 59], [0x29c2]), -- cirscir;
  ([67, 108, 111, 99, 107, 119, 105, 115, 101, 67, 111, 110, 116, 111, 117, 114, 73, 110, 116, 101, 103, 114, 97, 108, 59], [0x2232]), -- ClockwiseContourIntegral;
  ([67, 108, 111, 115, 101, 67, 117, 114, 108, 121, 68, 111, 117, 98, 108, 101, 81, 117, 111, 116, 101, 59], [0x201d]), -- CloseCurlyDoubleQuote;
  ([67, 108, 111, 115, 101, 67, 117, 114, 108, 121, 81, 117, 111, 116, 101, 59], [0x2019]), -- CloseCurlyQuote;
  ([99, 108, 117, 98, 115, 59], [0x2663]), -- clubs;
  ([99, 108, 117, 98, 115, 117, 105, 116, 59], [0x2663]), -- clubsuit;
  ([67, 111, 108, 111, 110, 59], [0x2237]), -- Colon;
  ([99, 111, 108, 111, 110, 59], [0x3a]), -- colon;
  ([67, 111, 108, 111, 110, 101, 59], [0x2a74]), -- Colone;
  ([99, 111, 108, 111, 110, 101, 59], [0x2254]), -- colone;
  ([99, 111, 108, 111, 110, 101, 113, 59], [0x2254]), -- coloneq;
  ([99, 111, 109, 109, 97, 59], [0x2c]), -- comma;
  ([99, 111, 109, 109, 97, 116, 59], [0x40]), -- commat;
  ([99, 111, 109, 112, 59], [0x2201]), -- comp;
  ([99, 111, 109, 112, 102, 110, 59], [0x2218]), -- compfn;
  ([99, 111, 109, 112, 108, 101, 109, 101, 110, 116, 59], [0x2201]), -- complement;
  ([99, 111, 109, 112, 108, 101, 120, 101, 115, 59], [0x2102]), -- complexes;
  ([99, 111, 110, 103, 59], [0x2245]), -- cong;
  ([99, 111, 110, 103, 100, 111, 116, 59], [0x2a6d]), -- congdot;
  ([67, 111, 110, 103, 114, 117, 101, 110, 116, 59], [0x2261]), -- Congruent;
  ([67, 111, 110, 105, 110, 116, 59], [0x222f]), -- Conint;
  ([99, 111, 110, 105, 110, 116, 59], [0x222e]), -- conint;
  ([67, 111, 110, 116, 111, 117, 114, 73, 110, 116, 101, 103, 114, 97, 108, 59], [0x222e]), -- ContourIntegral;
  ([67, 111, 112, 102, 59], [0x2102]), -- Copf;
  ([99, 111, 112, 102, 59], [0x1d554]), -- copf;
  ([99, 111, 112, 114, 111, 100, 59], [0x2210]), -- coprod;
  ([67, 111, 112, 114, 111, 100, 117, 99, 116, 59], [0x2210]), -- Coproduct;
  ([67, 79, 80, 89], [0xa9]), -- COPY
  ([99, 111, 112, 121], [0xa9]), -- copy
  ([67, 79, 80, 89, 59], [0xa9]), -- COPY;
  ([99, 111, 112, 121, 59], [0xa9]), -- copy;
  ([99, 111, 112, 121, 115, 114, 59], [0x2117]), -- copysr;
  ([67, 111, 117, 110, 116, 101, 114, 67, 108, 111, 99, 107, 119, 105, 115, 101, 67, 111, 110, 116, 111, 117, 114, 73, 110, 116, 101, 103, 114, 97, 108, 59], [0x2233]), -- CounterClockwiseContourIntegral;
  ([99, 114, 97, 114, 114, 59], [0x21b5]), -- crarr;
  ([67, 114, 111, 115, 115, 59], [0x2a2f]), -- Cross;
  ([99, 114, 111, 115, 115, 59], [0x2717]), -- cross;
  ([67, 115, 99, 114, 59], [0x1d49e]), -- Cscr;
  ([99, 115, 99, 114, 59], [0x1d4b8]), -- cscr;
  ([99, 115, 117, 98, 59], [0x2acf]), -- csub;
  ([99, 115, 117, 98, 101, 59], [0x2ad1]), -- csube;
  ([99, 115, 117, 112, 59], [0x2ad0]), -- csup;
  ([99, 115, 117, 112, 101, 59], [0x2ad2]), -- csupe;
  ([99, 116, 100, 111, 116, 59], [0x22ef]), -- ctdot;
  ([99, 117, 100, 97, 114, 114, 108, 59], [0x2938]), -- cudarrl;
  ([99, 117, 100, 97, 114, 114, 114, 59], [0x2935]), -- cudarrr;
  ([99, 117, 101, 112, 114, 59], [0x22de]), -- cuepr;
  ([99, 117, 101, 115, 99, 59], [0x22df]), -- cuesc;
  ([99, 117, 108, 97, 114, 114, 59], [0x21b6]), -- cularr;
  ([99, 117, 108, 97, 114, 114, 112, 59], [0x293d]), -- cularrp;
  ([67, 117, 112, 59], [0x22d3]), -- Cup;
  ([99, 117, 112, 59], [0x222a]), -- cup;
  ([99, 117, 112, 98, 114, 99, 97, 112, 59], [0x2a48]), -- cupbrcap;
  ([67, 117, 112, 67, 97, 112, 59], [0x224d]), -- CupCap;
  ([99, 117, 112, 99, 97, 112, 59], [0x2a46]), -- cupcap;
  ([99, 117, 112, 99, 117, 112, 59], [0x2a4a]), -- cupcup;
  ([99, 117, 112, 100, 111, 116, 59], [0x228d]), -- cupdot;
  ([99, 117, 112, 111, 114, 59], [0x2a45]), -- cupor;
  ([99, 117, 112, 115, 59], [0x222a, 0xfe00]), -- cups;
  ([99, 117, 114, 97, 114, 114, 59], [0x21b7]), -- curarr;
  ([99, 117, 114, 97, 114, 114, 109, 59], [0x293c]), -- curarrm;
  ([99, 117, 114, 108, 121, 101, 113, 112, 114, 101, 99, 59], [0x22de]), -- curlyeqprec;
  ([99, 117, 114, 108, 121, 101, 113, 115, 117, 99, 99, 59], [0x22df]), -- curlyeqsucc;
  ([99, 117, 114, 108, 121, 118, 101, 101, 59], [0x22ce]), -- curlyvee;
  ([99, 117, 114, 108, 121, 119, 101, 100, 103, 101, 59], [0x22cf]), -- curlywedge;
  ([99, 117, 114, 114, 101, 110], [0xa4]), -- curren
  ([99, 117, 114, 114, 101, 110, 59], [0xa4]), -- curren;
  ([99, 117, 114, 118, 101, 97, 114, 114, 111, 119, 108, 101, 102, 116, 59], [0x21b6]), -- curvearrowleft;
  ([99, 117, 114, 118, 101, 97, 114, 114, 111, 119, 114, 105, 103, 104, 116, 59], [0x21b7]), -- curvearrowright;
  ([99, 117, 118, 101, 101, 59], [0x22ce]), -- cuvee;
  ([99, 117, 119, 101, 100, 59], [0x22cf]), -- cuwed;
  ([99, 119, 99, 111, 110, 105, 110, 116, 59], [0x2232]), -- cwconint;
  ([99, 119, 105, 110, 116, 59], [0x2231]), -- cwint;
  ([99, 121, 108, 99, 116, 121, 59], [0x232d]), -- cylcty;
  ([68, 97, 103, 103, 101, 114, 59], [0x2021]), -- Dagger;
  ([100, 97, 103, 103, 101, 114, 59], [0x2020]), -- dagger;
  ([100, 97, 108, 101, 116, 104, 59], [0x2138]), -- daleth;
  ([68, 97, 114, 114, 59], [0x21a1]), -- Darr;
  ([100, 65, 114, 114, 59], [0x21d3]), -- dArr;
  ([100, 97, 114, 114, 59], [0x2193]), -- darr;
  ([100, 97, 115, 104, 59], [0x2010]), -- dash;
  ([68, 97, 115, 104, 118, 59], [0x2ae4]), -- Dashv;
  ([100, 97, 115, 104, 118, 59], [0x22a3]), -- dashv;
  ([100, 98, 107, 97, 114, 111, 119, 59], [0x290f]), -- dbkarow;
  ([100, 98, 108, 97, 99, 59], [0x2dd]), -- dblac;
  ([68, 99, 97, 114, 111, 110, 59], [0x10e]), -- Dcaron;
  ([100, 99, 97, 114, 111, 110, 59], [0x10f]), -- dcaron;
  ([68, 99, 121, 59], [0x414]), -- Dcy;
  ([100, 99, 121, 59], [0x434]), -- dcy;
  ([68, 68, 59], [0x2145]), -- DD;
  ([100, 100, 59], [0x2146]), -- dd;
  ([100, 100, 97, 103, 103, 101, 114, 59], [0x2021]), -- ddagger;
  ([100, 100, 97, 114, 114, 59], [0x21ca]), -- ddarr;
  ([68, 68, 111, 116, 114, 97, 104, 100, 59], [0x2911]), -- DDotrahd;
  ([100, 100, 111, 116, 115, 101, 113, 59], [0x2a77]), -- ddotseq;
  ([100, 101, 103], [0xb0]), -- deg
  ([100, 101, 103, 59], [0xb0]), -- deg;
  ([68, 101, 108, 59], [0x2207]), -- Del;
  ([68, 101, 108, 116, 97, 59], [0x394]), -- Delta;
  ([100, 101, 108, 116, 97, 59], [0x3b4]), -- delta;
  ([100, 101, 109, 112, 116, 121, 118, 59], [0x29b1]), -- demptyv;
  ([100, 102, 105, 115, 104, 116, 59], [0x297f]), -- dfisht;
  ([68, 102, 114, 59], [0x1d507]), -- Dfr;
  ([100, 102, 114, 59], [0x1d521]), -- dfr;
  ([100, 72, 97, 114, 59], [0x2965]), -- dHar;
  ([100, 104, 97, 114, 108, 59], [0x21c3]), -- dharl;
  ([100, 104, 97, 114, 114, 59], [0x21c2]), -- dharr;
  ([68, 105, 97, 99, 114, 105, 116, 105, 99, 97, 108, 65, 99, 117, 116, 101, 59], [0xb4]), -- DiacriticalAcute;
  ([68, 105, 97, 99, 114, 105, 116, 105, 99, 97, 108, 68, 111, 116, 59], [0x2d9]), -- DiacriticalDot;
  ([68, 105, 97, 99, 114, 105, 116, 105, 99, 97, 108, 68, 111, 117, 98, 108, 101, 65, 99, 117, 116, 101, 59], [0x2dd]), -- DiacriticalDoubleAcute;
  ([68, 105, 97, 99, 114, 105, 116, 105, 99, 97, 108, 71, 114, 97, 118, 101, 59], [0x60]), -- DiacriticalGrave;
  ([68, 105, 97, 99, 114, 105, 116, 105, 99, 97, 108, 84, 105, 108, 100, 101, 59], [0x2dc]), -- DiacriticalTilde;
  ([100, 105, 97, 109, 59], [0x22c4]), -- diam;
  ([68, 105, 97, 109, 111, 110, 100, 59], [0x22c4]), -- Diamond;
  ([100, 105, 97, 109, 111, 110, 100, 59], [0x22c4])] -- diamond;

/-- Entries 400.. of `html5` (`kajiki/entities.py` 46-2278). -/
def html5Chunk2 : List (List Nat × List Nat) := [
  ([100, 105, 97, 109, 111, 110, 100, 115, 117, 105, 116, 59], [0x2666]), -- diamondsuit;
  ([100, 105, 97, 109, 115, 59], [0x2666]), -- diams;
  ([100, 105, 101, 59], [0xa8]), -- die;
  ([68, 105, 102, 102, 101, 114, 101, 110, 116, 105, 97, 108, 68, 59], [0x2146]), -- DifferentialD;
  ([100, 105, 103, 97, 109, 109, 97, 59], [0x3dd]), -- digamma;
  ([100, 105, 115, 105, 110, 59], [0x22f2]), -- disin;
  ([100, 105, 118, 59], [0xf7]), -- div;
  ([100, 105, 118, 105, 100, 101], [0xf7]), -- divide
  ([100, 105, 118, 105, 100, 101, 59], [0xf7]), -- divide;
  ([100, 105, 118, 105, 100, 101, 111, 110, 116, 105, 109, 101, 115, 59], [0x22c7]), -- divideontimes;
  ([100, 105, 118, 111, 110, 120, 59], [0x22c7]), -- divonx;
  ([68, 74, 99, 121, 59], [0x402]), -- DJcy;
  ([100, 106, 99, 121, 59], [0x452]), -- djcy;
  ([100, 108, 99, 111, 114, 110, 59], [0x231e]), -- dlcorn;
  ([100, 108, 99, 114, 111, 112, 59], [0x230d]), -- dlcrop;
  ([100, 111, 108, 108, 97, 114, 59], [0x24]), -- dollar;
  ([68, 111, 112, 102, 59], [0x1d53b]), -- Dopf;
  ([100, 111, 112, 102, 59], [0x1d555]), -- dopf;
  ([68, 111, 116, 59], [0xa8]), -- Dot;
  ([100, 111, 116, 59], [0x2d9]), -- dot;
  ([68, 111, 116, 68, 111, 116, 59], [0x20dc]), -- DotDot;
  ([100, 111, 116, 101, 113, 59], [0x2250]), -- doteq;
  ([100, 111, 116, 101, 113, 100, 111, 116, 59], [0x2251]), -- doteqdot;
  ([68, 111, 116, 69, 113, 117, 97, 108, 59], [0x2250]), -- DotEqual;
  ([100, 111, 116, 109, 105, 110, 117, 115, 59], [0x2238]), -- dotminus;
  ([100, 111, 116, 112, 108, 117, 115, 59], [0x2214]), -- dotplus;
  ([100, 111, 116, 115, 113, 117, 97, 114, 101, 59], [0x22a1]), -- dotsquare;
  ([100, 111, 117, 98, 108, 101, 98, 97, 114, 119, 101, 100, 103, 101, 59], [0x2306]), -- doublebarwedge;
  ([68, 111, 117, 98, 108, 101, 67, 111, 110, 116, 111, 117, 114, 73, 110, 116, 101, 103, 114, 97, 108, 59], [0x222f]), -- DoubleContourIntegral;
  ([68, 111, 117, 98, 108, 101, 68, 111, 116, 59], [0xa8]), -- DoubleDot;
  ([68, 111, 117, 98, 108, 101, 68, 111, 119, 110, 65, 114, 114, 111, 119, 59], [0x21d3]), -- DoubleDownArrow;
  ([68, 111, 117, 98, 108, 101, 76, 101, 102, 116, 65, 114, 114, 111, 119, 59], [0x21d0]), -- DoubleLeftArrow;
  ([68, 111, 117, 98, 108, 101, 76, 101, 102, 116, 82, 105, 103, 104, 116, 65, 114, 114, 111, 119, 59], [0x21d4]), -- DoubleLeftRightArrow;
  ([68, 111, 117, 98, 108, 101, 76, 101, 102, 116, 84, 101, 101, 59], [0x2ae4]), -- DoubleLeftTee;
  ([68, 111, 117, 98, 108, 101, 76, 111, 110, 103, 76, 101, 102, 116, 65, 114, 114, 111, 119, 59], [0x27f8]), -- DoubleLongLeftArrow;
  ([68, 111, 117, 98, 108, 101, 76, 111, 110, 103, 76, 101, 102, 116, 82, 105, 103, 104, 116, 65, 114, 114, 111, 119, 59], [0x27fa]), -- DoubleLongLeftRightArrow;
  ([68, 111, 117, 98, 108, 101, 76, 111, 110, 103, 82, 105, 103, 104, 116, 65, 114, 114, 111, 119, 59], [0x27f9]), -- DoubleLongRightArrow;
  ([68, 111, 117, 98, 108, 101, 82, 105, 103, 104, 116, 65, 114, 114, 111, 119, 59], [0x21d2]), -- DoubleRightArrow;
  ([68, 111, 117, 98, 108, 101, 82, 105, 103, 104, 116, 84, 101, 101, 59], [0x22a8]), -- DoubleRightTee;
  ([68, 111, 117, 98, 108, 101, 85, 112, 65, 114, 114, 111, 119, 59], [0x21d1]), -- DoubleUpArrow;
  ([68, 111, 117, 98, 108, 101, 85, 112, 68, 111, 119, 110, 65, 114, 114, 111, 119, 59], [0x21d5]), -- DoubleUpDownArrow;
  ([68, 111, 117, 98, 108, 101, 86, 101, 114, 116, 105, 99, 97, 108, 66, 97, 114, 59], [0x2225]), -- DoubleVerticalBar;
  ([68, 111, 119, 110, 65, 114, 114, 111, 119, 59], [0x2193]), -- DownArrow;
  ([68, 111, 119, 110, 97, 114, 114, 111, 119, 59], [0x21d3]), -- Downarrow;
  ([100, 111, 119, 110, 97, 114, 114, 111, 119, 59], [0x2193]), -- downarrow;
  ([68, 111, 119, 110, 65, 114, 114, 111, 119, 66, 97, 114, 59], [0x2913]), -- DownArrowBar;
  ([68, 111, 119, 110, 65, 114, 114, 111, 119, 85, 112, 65, 114, 114, 111, 119, 59], [0x21f5]), -- DownArrowUpArrow;
  ([68, 111, 119, 110, 66, 114, 101, 118, 101, 59], [0x311]), -- DownBreve;
  ([100, 111, 119, 110, 100, 111, 119, 110, 97, 114, 114, 111, 119, 115, 59], [0x21ca]), -- downdownarrows;
  ([100, 111, 119, 110, 104, 97, 114, 112, 111, 111, 110, 108, 101, 102, 116, 59], [0x21c3]), -- downharpoonleft;
  ([100, 111, 119, 110, 104, 97, 114, 112, 111, 111, 110, 114, 105, 103, 104, 116, 59], [0x21c2]), -- downharpoonright;
  ([68, 111, 119, 110, 76, 101, 102, 116, 82, 105, 103, 104, 116, 86, 101, 99, 116, 111, 114, 59], [0x2950]), -- DownLeftRightVector;
  ([68, 111, 119, 110, 76, 101, 102, 116, 84, 101, 101, 86, 101, 99, 116, 111, 114, 59], [0x295e]), -- DownLeftTeeVector;
  ([68, 111, 119, 110, 76, 101, 102, 116, 86, 101, 99, 116, 111, 114, 59], [0x21bd]), -- DownLeftVector;
  ([68, 111, 119, 110, 76, 101, 102, 116, 86, 101, 99, 116, 111, 114, 66, 97, 114, 59], [0x2956]), -- DownLeftVectorBar;
  ([68, 111, 119, 110, 82, 105, 103, 104, 116, 84, 101, 101, 86, 101, 99, 116, 111, 114, 59], [0x295f]), -- DownRightTeeVector;
  ([68, 111, 119, 110, 82, 105, 103, 104, 116, 86, 101, 99, 116, 111, 114, 59], [0x21c1]), -- DownRightVector;
  ([68, 111, 119, 110, 82, 105, 103, 104, 116, 86, 101, 99, 116, 111, 114, 66, 97, 114, 59], [0x2957]), -- DownRightVectorBar;
  ([68, 111, 119, 110, 84, 101, 101, 59], [0x22a4]), -- DownTee;
  ([68, 111, 119, 110, 84, 101, 101, 65, 114, 114, 111, 119, 59], [0x21a7]), -- DownTeeArrow;
  ([100, 114, 98, 107, 97, 114, 111, 119, 59], [0x2910]), -- drbkarow;
  ([100, 114, 99, 111, 114, 110, 59], [0x231f]), -- drcorn;
  ([100, 114, 99, 114, 111, 112, 59], [0x230c]), -- drcrop;
  ([68, 115, 99, 114, 59], [0x1d49f]), -- Dscr;
  ([100, 115, 99, 114, 59], [0x1d4b9]), -- dscr;
  ([68, 83, 99, 121, 59], [0x405]), -- DScy;
  ([100, 115, 99, 121, 59], [0x455]), -- dscy;
  ([100, 115, 111, 108, 59], [0x29f6]), -- dsol;
  ([68, 115, 116, 114, 111, 107, 59], [0x110]), -- Dstrok;
  ([100, 115, 116, 114, 111, 107, 59], [0x111]), -- dstrok;
  ([100, 116, 100, 111, 116, 59], [0x22f1]), -- dtdot;
  ([100, 116, 114, 105, 59], [0x25bf]), -- dtri;
  ([100, 116, 114, 105, 102, 59], [0x25be]), -- dtrif;
  ([100, 117, 97, 114, 114, 59], [0x21f5]), -- duarr;
  ([100, 117, 104, 97, 114, 59], [0x296f]), -- duhar;
  ([100, 119, 97, 110, 103, 108, 101, 59], [0x29a6]), -- dwangle;
  ([68, 90, 99, 121, 59], [0x40f]), -- DZcy;
  ([100, 122, 99, 121, 59], [0x45f]), -- dzcy;
  ([100, 122, 105, 103, 114, 97, 114, 114, 59], [0x27ff]), -- dzigrarr;
  ([69, 97, 99, 117, 116, 101], [0xc9]), -- Eacute
  ([101, 97, 99, 117, 116, 101], [0xe9]), -- eacute
  ([69, 97, 99, 117, 116, 101, 59], [0xc9]), -- Eacute;
  ([101, 97, 99, 117, 116, 101, 59], [0xe9]), -- eacute;
  ([101, 97, 115, 116, 101, 114, 59], [0x2a6e]), -- easter;
  ([69, 99, 97, 114, 111, 110, 59], [0x11a]), -- Ecaron;
  ([101, 99, 97, 114, 111, 110, 59], [0x11b]), -- ecaron;
  ([101, 99, 105, 114, 59], [0x2256]), -- ecir;
  ([69, 99, 105, 114, 99], [0xca]), -- Ecirc
  ([101, 99, 105, 114, 99], [0xea]), -- ecirc
  ([69, 99, 105, 114, 99, 59], [0xca]), -- Ecirc;
  ([101, 99, 105, 114, 99, 59], [0xea]), -- ecirc;
  ([101, 99, 111, 108, 111, 110, 59], [0x2255]), -- ecolon;
  ([69, 99, 121, 59], [0x42d]), -- Ecy;
  ([101, 99, 121, 59], [0x44d]), -- ecy;
  ([101, 68, 68, 111, 116, 59], [0x2a77]), -- eDDot;
  ([69, 100, 111, 116, 59], [0x116]), -- Edot;
  ([101, 68, 111, 116, 59], [0x2251]), -- eDot;
  ([101, 100, 111, 116, 59], [0x117]), -- edot;
  ([101, 101, 59], [0x2147]), -- ee;
  ([101, 102, 68, 111, 116, 59], [0x2252]), -- efDot;
  ([69, 102, 114, 59], [0x1d508]), -- Efr;
  ([101, 102, 114, 59], [0x1d522]), -- efr;
  ([101, 103, 59], [0x2a9a]), -- eg;
  ([69, 103, 114, 97, 118, 101], [0xc8]), -- Egrave
  ([101, 103, 114, 97, 118, 101], [0xe8]), -- egrave
  ([69, 103, 114, 97, 118, 101, 59], [0xc8]), -- Egrave;
  ([101, 103, 114, 97, 118, 101, 59], [0xe8]), -- egrave;
  ([101, 103, 115, 59], [0x2a96]), -- egs;
  ([101, 103, 115, 100, 111, 116, 59], [0x2a98]), -- egsdot;
  ([101, 108, 59], [0x2a99]), -- el;
  ([69, 108, 101, 109, 101, 110, 116, 59], [0x2208]), -- Element;
  ([101, 108, 105, 110, 116, 101, 114, 115, 59], [0x23e7]), -- elinters;
  ([101, 108, 108, 59], [0x2113]), -- ell;
  ([101, 108, 115, 59], [0x2a95]), -- els;
  ([101, 108, 115, 100, 111, 116, 59], [0x2a97]), -- elsdot;
  ([69, 109, 97, 99, 114, 59], [0x112]), -- Emacr;
  ([101, 109, 97, 99, 114, 59], [0x113]), -- emacr;
  ([101, 109, 112, 116, 121, 59], [0x2205]), -- empty;
  ([101, 109, 112, 116, 121, 115, 101, 116, 59], [0x2205]), -- emptyset;
  ([69, 109, 112, 116, 121, 83, 109, 97, 108, 108, 83, 113, 117, 97, 114, 101, 59], [0x25fb]), -- EmptySmallSquare;
  ([101, 109, 112, 116, 121, 118, 59], [0x2205]), -- emptyv;
  ([69, 109, 112, 116, 121, 86, 101, 114, 121, 83, 109, 97, 108, 108, 83, 113, 117, 97, 114, 101, 59], [0x25ab]), -- EmptyVerySmallSquare;
  ([101, 109, 115, 112, 49, 51, 59], [0x2004]), -- emsp13;
  ([101, 109, 115, 112, 49, 52, 59], [0x2005]), -- emsp14;
  ([101, 109, 115, 112, 59], [0x2003]), -- emsp;
  ([69, 78, 71, 59], [0x14a]), -- ENG;
  ([101, 110, 103, 59], [0x14b]), -- eng;
  ([101, 110, 115, 112, 59], [0x2002]), -- ensp;
  ([69, 111, 103, 111, 110, 59], [0x118]), -- Eogon;
  ([101, 111, 103, 111, 110, 59], [0x119]), -- eogon;
  ([69, 111, 112, 102, 59], [0x1d53c]), -- Eopf;
  ([101, 111, 112, 102, 59], [0x1d556]), -- eopf;
  ([101, 112, 97, 114, 59], [0x22d5]), -- epar;
  ([101, 112, 97, 114, 115, 108, 59], [0x29e3]), -- eparsl;
  ([101, 112, 108, 117, 115, 59], [0x2a71]), -- eplus;
  ([101, 112, 115, 105, 59], [0x3b5]), -- epsi;
  ([69, 112, 115, 105, 108, 111, 110, 59], [0x395]), -- Epsilon;
  ([101, 112, 115, 105, 108, 111, 110, 59], [0x3b5]), -- epsilon;
  ([101, 112, 115, 105, 118, 59], [0x3f5]), -- epsiv;
  ([101, 113, 99, 105, 114, 99, 59], [0x2256]), -- eqcirc;
  ([101, 113, 99, 111, 108, 111, 110, 59], [0x2255]), -- eqcolon;
  ([101, 113, 115, 105, 109, 59], [0x2242]), -- eqsim;
  ([101, 113, 115, 108, 97, 110, 116, 103, 116, 114, 59], [0x2a96]), -- eqslantgtr;
  ([101, 113, 115, 108, 97, 110, 116, 108, 101, 115, 115, 59], [0x2a95]), -- eqslantless;
  ([69, 113, 117, 97, 108, 59], [0x2a75]), -- Equal;
  ([101, 113, 117, 97, 108, 115, 59], [0x3d]), -- equals;
  ([69, 113, 117, 97, 108, 84, 105, 108, 100, 101, 59], [0x2242]), -- EqualTilde;
  ([101, 113, 117, 101, 115, 116, 59], [0x225f]), -- equest;
  ([69, 113, 117, 105, 108, 105, 98, 114, 105, 117, 109, 59], [0x21cc]), -- Equilibrium;
  ([101, 113, 117, 105, 118, 59], [0x2261]), -- equiv;
  ([101, 113, 117, 105, 118, 68, 68, 59], [0x2a78]), -- equivDD;
  ([101, 113, 118, 112, 97, 114, 115, 108, 59], [0x29e5]), -- eqvparsl;
  ([101, 114, 97, 114, 114, 59], [0x2971]), -- erarr;
  ([101, 114, 68, 111, 116, 59], [0x2253]), -- erDot;
  ([69, 115, 99, 114, 59], [0x2130]), -- Escr;
  ([101, 115, 99, 114, 59], [0x212f]), -- escr;
  ([101, 115, 100, 111, 116, 59], [0x2250]), -- esdot;
  ([69, 115, 105, 109, 59], [0x2a73]), -- Esim;
  ([101, 115, 105, 109, 59], [0x2242]), -- esim;
  ([69, 116, 97, 59], [0x397]), -- Eta;
  ([101, 116, 97, 59], [0x3b7]), -- eta;
  ([69, 84, 72], [0xd0]), -- ETH
  ([101, 116, 104], [0xf0]), -- eth
  ([69, 84, 72, 59], [0xd0]), -- ETH;
  ([101, 116, 104, 59], [0xf0]), -- eth;
  ([69, 117, 109, 108], [0xcb]), -- Euml
  ([101, 117, 109, 108], [0xeb]), -- euml
  ([69, 117, 109, 108, 59], [0xcb]), -- Euml;
  ([101, 117, 109, 108, 59], [0xeb]), -- euml;
  ([101, 117, 114, 111, 59], [0x20ac]), -- euro;
  ([101, 120, 99, 108, 59], [0x21]), -- excl;
  ([101, 120, 105, 115, 116, 59], [0x2203]), -- exist;
  ([69, 120, 105, 115, 116, 115, 59], [0x2203]), -- Exists;
  ([101, 120, 112, 101, 99, 116, 97, 116, 105, 111, 110, 59], [0x2130]), -- expectation;
  ([69, 120, 112, 111, 110, 101, 110, 116, 105, 97, 108, 69, 59], [0x2147]), -- ExponentialE;
  ([101, 120, 112, 111, 110, 101, 110, 116, 105, 97, 108, 101, 59], [0x2147]), -- exponentiale;
  ([102, 97, 108, 108, 105, 110, 103, 100, 111, 116, 115, 101, 113, 59], [0x2252]), -- fallingdotseq;
  ([70, 99, 121, 59], [0x424]), -- Fcy;
  ([102, 99, 121, 59], [0x444]), -- fcy;
  ([102, 101, 109, 97, 108, 101, 59], [0x2640]), -- female;
  ([102, 102, 105, 108, 105, 103, 59], [0xfb03]), -- ffilig;
  ([102, 102, 108, 105, 103, 59], [0xfb00]), -- fflig;
  ([102, 102, 108, 108, 105, 103, 59], [0xfb04]), -- ffllig;
  ([70, 102, 114, 59], [0x1d509]), -- Ffr;
  ([102, 102, 114, 59], [0x1d523]), -- ffr;
  ([102, 105, 108, 105, 103, 59], [0xfb01]), -- filig;
  ([70, 105, 108, 108, 101, 100, 83, 109, 97, 108, 108, 83, 113, 117, 97, 114, 101, 59], [0x25fc]), -- FilledSmallSquare;
  ([70, 105, 108, 108, 101, 100, 86, 101, 114, 121, 83, 109, 97, 108, 108, 83, 113, 117, 97, 114, 101, 59], [0x25aa]), -- FilledVerySmallSquare;
  ([102, 106, 108, 105, 103, 59], [0x66, 0x6a]), -- fjlig;
  ([102, 108, 97, 116, 59], [0x266d]), -- flat;
  ([102, 108, 108, 105, 103, 59], [0xfb02]), -- fllig;
  ([102, 108, 116, 110, 115, 59], [0x25b1]), -- fltns;
  ([102, 110, 111, 102, 59], [0x192]), -- fnof;
  ([70, 111, 112, 102, 59], [0x1d53d]), -- Fopf;
  ([102, 111, 112, 102, 59], [0x1d557]), -- fopf;
  ([70, 111, 114, 65, 108, 108, 59], [0x2200]), -- ForAll;
  ([102, 111, 114, 97, 108, 108, 59], [0x2200]), -- forall;
  ([102, 111, 114, 107, 59], [0x22d4]), -- fork;
  ([102, 111, 114, 107, 118, 59], [0x2ad9]), -- forkv;
  ([70, 111, 117, 114, 105, 101, 114, 116, 114, 102, 59], [0x2131])] -- Fouriertrf;

/-- Entries 600.. of `html5` (`kajiki/entities.py` 46-2278). -/
def html5Chunk3 : List (List Nat × List Nat) := [
  ([102, 112, 97, 114, 116, 105, 110, 116, 59], [0x2a0d]), -- fpartint;
  ([102, 114, 97, 99, 49, 50], [0xbd]), -- frac12
  ([102, 114, 97, 99, 49, 50, 59], [0xbd]), -- frac12;
  ([102, 114, 97, 99, 49, 51, 59], [0x2153]), -- frac13;
  ([102, 114, 97, 99, 49, 52], [0xbc]), -- frac14
  ([102, 114, 97, 99, 49, 52, 59], [0xbc]), -- frac14;
  ([102, 114, 97, 99, 49, 53, 59], [0x2155]), -- frac15;
  ([102, 114, 97, 99, 49, 54, 59], [0x2159]), -- frac16;
  ([102, 114, 97, 99, 49, 56, 59], [0x215b]), -- frac18;
  ([102, 114, 97, 99, 50, 51, 59], [0x2154]), -- frac23;
  ([102, 114, 97, 99, 50, 53, 59], [0x2156]), -- frac25;
  ([102, 114, 97, 99, 51, 52], [0xbe]), -- frac34
  ([102, 114, 97, 99, 51, 52, 59], [0xbe]), -- frac34;
  ([102, 114, 97, 99, 51, 53, 59], [0x2157]), -- frac35;
  ([102, 114, 97, 99, 51, 56, 59], [0x215c]), -- frac38;
  ([102, 114, 97, 99, 52, 53, 59], [0x2158]), -- frac45;
  ([102, 114, 97, 99, 53, 54, 59], [0x215a]), -- frac56;
  ([102, 114, 97, 99, 53, 56, 59], [0x215d]), -- frac58;
  ([102, 114, 97, 99, 55, 56, 59], [0x215e]), -- frac78;
  ([102, 114, 97, 115, 108, 59], [0x2044]), -- frasl;
  ([102, 114, 111, 119, 110, 59], [0x2322]), -- frown;
  ([70, 115, 99, 114, 59], [0x2131]), -- Fscr;
  ([102, 115, 99, 114, 59], [0x1d4bb]), -- fscr;
  ([103, 97, 99, 117, 116, 101, 59], [0x1f5]), -- gacute;
  ([71, 97, 109, 109, 97, 59], [0x393]), -- Gamma;
  ([103, 97, 109, 109, 97, 59], [0x3b3]), -- gamma;
  ([71, 97, 109, 109, 97, 100, 59], [0x3dc]), -- Gammad;
  ([103, 97, 109, 109, 97, 100, 59], [0x3dd]), -- gammad;
  ([103, 97, 112, 59], [0x2a86]), -- gap;
  ([71, 98, 114, 101, 118, 101, 59], [0x11e]), -- Gbreve;
  ([103, 98, 114, 101, 118, 101, 59], [0x11f]), -- gbreve;
  ([71, 99, 101, 100, 105, 108, 59], [0x122]), -- Gcedil;
  ([71, 99, 105, 114, 99, 59], [0x11c]), -- Gcirc;
  ([103, 99, 105, 114, 99, 59], [0x11d]), -- gcirc;
  ([71, 99, 121, 59], [0x413]), -- Gcy;
  ([103, 99, 121, 59], [0x433]), -- gcy;
  ([71, 100, 111, 116, 59], [0x120]), -- Gdot;
  ([103, 100, 111, 116, 59], [0x121]), -- gdot;
  ([103, 69, 59], [0x2267]), -- gE;
  ([103, 101, 59], [0x2265]), -- ge;
  ([103, 69, 108, 59], [0x2a8c]), -- gEl;
  ([103, 101, 108, 59], [0x22db]), -- gel;
  ([103, 101, 113, 59], [0x2265]), -- geq;
  ([103, 101, 113, 113, 59], [0x2267]), -- geqq;
  ([103, 101, 113, 115, 108, 97, 110, 116, 59], [0x2a7e]), -- geqslant;
  ([103, 101, 115, 59], [0x2a7e]), -- ges;
  ([103, 101, 115, 99, 99, 59], [0x2aa9]), -- gescc;
  ([103, 101, 115, 100, 111, 116, 59], [0x2a80]), -- gesdot;
  ([103, 101, 115, 100, 111, 116, 111, 59], [0x2a82]), -- gesdoto;
  ([103, 101, 115, 100, 111, 116, 111, 108, 59], [0x2a84]), -- gesdotol;
  ([103, 101, 115, 108, 59], [0x22db, 0xfe00]), -- gesl;
  ([103, 101, 115, 108, 101, 115, 59], [0x2a94]), -- gesles;
  ([71, 102, 114, 59], [0x1d50a]), -- Gfr;
  ([103, 102, 114, 59], [0x1d524]), -- gfr;
  ([71, 103, 59], [0x22d9]), -- Gg;
  ([103, 103, 59], [0x226b]), -- gg;
  ([103, 103, 103, 59], [0x22d9]), -- ggg;
  ([103, 105, 109, 101, 108, 59], [0x2137]), -- gimel;
  ([71, 74, 99, 121, 59], [0x403]), -- GJcy;
  ([103, 106, 99, 121, 59], [0x453]), -- gjcy;
  ([103, 108, 59], [0x2277]), -- gl;
  ([103, 108, 97, 59], [0x2aa5]), -- gla;
  ([103, 108, 69, 59], [0x2a92]), -- glE;
  ([103, 108, 106, 59], [0x2aa4]), -- glj;
  ([103, 110, 97, 112, 59], [0x2a8a]), -- gnap;
  ([103, 110, 97, 112, 112, 114, 111, 120, 59], [0x2a8a]), -- gnapprox;
  ([103, 110, 69, 59], [0x2269]), -- gnE;
  ([103, 110, 101, 59], [0x2a88]), -- gne;
  ([103, 110, 101, 113, 59], [0x2a88]), -- gneq;
  ([103, 110, 101, 113, 113, 59], [0x2269]), -- gneqq;
  ([103, 110, 115, 105, 109, 59], [0x22e7]), -- gnsim;
  ([71, 111, 112, 102, 59], [0x1d53e]), -- Gopf;
  ([103, 111, 112, 102, 59], [0x1d558]), -- gopf;
  ([103, 114, 97, 118, 101, 59], [0x60]), -- grave;
  ([71, 114, 101, 97, 116, 101, 114, 69, 113, 117, 97, 108, 59], [0x2265]), -- GreaterEqual;
  ([71, 114, 101, 97, 116, 101, 114, 69, 113, 117, 97, 108, 76, 101, 115, 115, 59], [0x22db]), -- GreaterEqualLess;
  ([71, 114, 101, 97, 116, 101, 114, 70, 117, 108, 108, 69, 113, 117, 97, 108, 59], [0x2267]), -- GreaterFullEqual;
  ([71, 114, 101, 97, 116, 101, 114, 71, 114, 101, 97, 116, 101, 114, 59], [0x2aa2]), -- GreaterGreater;
  ([71, 114, 101, 97, 116, 101, 114, 76, 101, 115, 115, 59], [0x2277]), -- GreaterLess;
  ([71, 114, 101, 97, 116, 101, 114, 83, 108, 97, 110, 116, 69, 113, 117, 97, 108, 59], [0x2a7e]), -- GreaterSlantEqual;
  ([71, 114, 101, 97, 116, 101, 114, 84, 105, 108, 100, 101, 59], [0x2273]), -- GreaterTilde;
  ([71, 115, 99, 114, 59], [0x1d4a2]), -- Gscr;
  ([103, 115, 99, 114, 59], [0x210a]), -- gscr;
  ([103, 115, 105, 109, 59], [0x2273]), -- gsim;
  ([103, 115, 105, 109, 101, 59], [0x2a8e]), -- gsime;
  ([103, 115, 105, 109, 108, 59], [0x2a90]), -- gsiml;
  ([71, 84], [0x3e]), -- GT
  ([103, 116], [0x3e]), -- gt
  ([71, 84, 59], [0x3e]), -- GT;
  ([71, 116, 59], [0x226b]), -- Gt;
  ([103, 116, 59], [0x3e]), -- gt;
  ([103, 116, 99, 99, 59], [0x2aa7]), -- gtcc;
  ([103, 116, 99, 105, 114, 59], [0x2a7a]), -- gtcir;
  ([103, 116, 100, 111, 116, 59], [0x22d7]), -- gtdot;
  ([103, 116, 108, 80, 97, 114, 59], [0x2995]), -- gtlPar;
  ([103, 116, 113, 117, 101, 115, 116, 59], [0x2a7c]), -- gtquest;
  ([103, 116, 114, 97, 112, 112, 114, 111, 120, 59], [0x2a86]), -- gtrapprox;
  ([103, 116, 114, 97, 114, 114, 59], [0x2978]), -- gtrarr;
  ([103, 116, 114, 100, 111, 116, 59], [0x22d7]), -- gtrdot;
  ([103, 116, 114, 101, 113, 108, 101, 115, 115, 59], [0x22db]), -- gtreqless;
  ([103, 116, 114, 101, 113, 113, 108, 101, 115, 115, 59], [0x2a8c]), -- gtreqqless;
  ([103, 116, 114, 108, 101, 115, 115, 59], [0x2277]), -- gtrless;
  ([103, 116, 114, 115, 105, 109, 59], [0x2273]), -- gtrsim;
  ([103, 118, 101, 114, 116, 110, 101, 113, 113, 59], [0x2269, 0xfe00]), -- gvertneqq;
  ([103, 118, 110, 69, 59], [0x2269, 0xfe00]), -- gvnE;
  ([72, 97, 99, 101, 107, 59], [0x2c7]), -- Hacek;
  ([104, 97, 105, 114, 115, 112, 59], [0x200a]), -- hairsp;
  ([104, 97, 108, 102, 59], [0xbd]), -- half;
  ([104, 97, 109, 105, 108, 116, 59], [0x210b]), -- hamilt;
  ([72, 65, 82, 68, 99, 121, 59], [0x42a]), -- HARDcy;
  ([104, 97, 114, 100, 99, 121, 59], [0x44a]), -- hardcy;
  ([104, 65, 114, 114, 59], [0x21d4]), -- hArr;
  ([104, 97, 114, 114, 59], [0x2194]), -- harr;
  ([104, 97, 114, 114, 99, 105, 114, 59], [0x2948]), -- harrcir;
  ([104, 97, 114, 114, 119, 59], [0x21ad]), -- harrw;
  ([72, 97, 116, 59], [0x5e]), -- Hat;
  ([104, 98, 97, 114, 59], [0x210f]), -- hbar;
  ([72, 99, 105, 114, 99, 59], [0x124]), -- Hcirc;
  ([104, 99, 105, 114, 99, 59], [0x125]), -- hcirc;
  ([104, 101, 97, 114, 116, 115, 59], [0x2665]), -- hearts;
  ([104, 101, 97, 114, 116, 115, 117, 105, 116, 59], [0x2665]), -- heartsuit;
  ([104, 101, 108, 108, 105, 112, 59], [0x2026]), -- hellip;
  ([104, 101, 114, 99, 111, 110, 59], [0x22b9]), -- hercon;
  ([72, 102, 114, 59], [0x210c]), -- Hfr;
  ([104, 102, 114, 59], [0x1d525]), -- hfr;
  ([72, 105, 108, 98, 101, 114, 116, 83, 112, 97, 99, 101, 59], [0x210b]), -- HilbertSpace;
  ([104, 107, 115, 101, 97, 114, 111, 119, 59], [0x2925]), -- hksearow;
  ([104, 107, 115, 119, 97, 114, 111, 119, 59], [0x2926]), -- hkswarow;
  ([104, 111, 97, 114, 114, 59], [0x21ff]), -- hoarr;
  ([104, 111, 109, 116, 104, 116, 59], [0x223b]), -- homtht;
  ([104, 111, 111, 107, 108, 101, 102, 116, 97, 114, 114, 111, 119, 59], [0x21a9]), -- hookleftarrow;
  ([104, 111, 111, 107, 114, 105, 103, 104, 116, 97, 114, 114, 111, 119, 59], [0x21aa]), -- hookrightarrow;
  ([72, 111, 112, 102, 59], [0x210d]), -- Hopf;
  ([104, 111, 112, 102, 59], [0x1d559]), -- hopf;
  ([104, 111, 114, 98, 97, 114, 59], [0x2015]), -- horbar;
  ([72, 111, 114, 105, 122, 111, 110, 116, 97, 108, 76, 105, 110, 101, 59], [0x2500]), -- HorizontalLine;
  ([72, 115, 99, 114, 59], [0x210b]), -- Hscr;
  ([104, 115, 99, 114, 59], [0x1d4bd]), -- hscr;
  ([104, 115, 108, 97, 115, 104, 59], [0x210f]), -- hslash;
  ([72, 115, 116, 114, 111, 107, 59], [0x126]), -- Hstrok;
  ([104, 115, 116, 114, 111, 107, 59], [0x127]), -- hstrok;
  ([72, 117, 109, 112, 68, 111, 119, 110, 72, 117, 109, 112, 59], [0x224e]), -- HumpDownHump;
  ([72, 117, 109, 112, 69, 113, 117, 97, 108, 59], [0x224f]), -- HumpEqual;
  ([104, 121, 98, 117, 108, 108, 59], [0x2043]), -- hybull;
  ([104, 121, 112, 104, 101, 110, 59], [0x2010]), -- hyphen;
  ([73, 97, 99, 117, 116, 101], [0xcd]), -- Iacute
  ([105, 97, 99, 117, 116, 101], [0xed]), -- iacute
  ([73, 97, 99, 117, 116, 101, 59], [0xcd]), -- Iacute;
  ([105, 97, 99, 117, 116, 101, 59], [0xed]), -- iacute;
  ([105, 99, 59], [0x2063]), -- ic;
  ([73, 99, 105, 114, 99], [0xce]), -- Icirc
  ([105, 99, 105, 114, 99], [0xee]), -- icirc
  ([73, 99, 105, 114, 99, 59], [0xce]), -- Icirc;
  ([105, 99, 105, 114, 99, 59], [0xee]), -- icirc;
  ([73, 99, 121, 59], [0x418]), -- Icy;
  ([105, 99, 121, 59], [0x438]), -- icy;
  ([73, 100, 111, 116, 59], [0x130]), -- Idot;
  ([73, 69, 99, 121, 59], [0x415]), -- IEcy;
  ([105, 101, 99, 121, 59], [0x435]), -- iecy;
  ([105, 101, 120, 99, 108], [0xa1]), -- iexcl
  ([105, 101, 120, 99, 108, 59], [0xa1]), -- iexcl;
  ([105, 102, 102, 59], [0x21d4]), -- iff;
  ([73, 102, 114, 59], [0x2111]), -- Ifr;
  ([105, 102, 114, 59], [0x1d526]), -- ifr;
  ([73, 103, 114, 97, 118, 101], [0xcc]), -- Igrave
  ([105, 103, 114, 97, 118, 101], [0xec]), -- igrave
  ([73, 103, 114, 97, 118, 101, 59], [0xcc]), -- Igrave;
  ([105, 103, 114, 97, 118, 101, 59], [0xec]), -- igrave;
  ([105, 105, 59], [0x2148]), -- ii;
  ([105, 105, 105, 105, 110, 116, 59], [0x2a0c]), -- iiiint;
  ([105, 105, 105, 110, 116, 59], [0x222d]), -- iiint;
  ([105, 105, 110, 102, 105, 110, 59], [0x29dc]), -- iinfin;
  ([105, 105, 111, 116, 97, 59], [0x2129]), -- iiota;
  ([73, 74, 108, 105, 103, 59], [0x132]), -- IJlig;
  ([105, 106, 108, 105, 103, 59], [0x133]), -- ijlig;
  ([73, 109, 59], [0x2111]), -- Im;
  ([73, 109, 97, 99, 114, 59], [0x12a]), -- Imacr;
  ([105, 109, 97, 99, 114, 59], [0x12b]), -- imacr;
  ([105, 109, 97, 103, 101, 59], [0x2111]), -- image;
  ([73, 109, 97, 103, 105, 110, 97, 114, 121, 73, 59], [0x2148]), -- ImaginaryI;
  ([105, 109, 97, 103, 108, 105, 110, 101, 59], [0x2110]), -- imagline;
  ([105, 109, 97, 103, 112, 97, 114, 116, 59], [0x2111]), -- imagpart;
  ([105, 109, 97, 116, 104, 59], [0x131]), -- imath;
  ([105, 109, 111, 102, 59], [0x22b7]), -- imof;
  ([105, 109, 112, 101, 100, 59], [0x1b5]), -- imped;
  ([73, 109, 112, 108, 105, 101, 115, 59], [0x21d2]), -- Implies;
  ([105, 110, 59], [0x2208]), -- in;
  ([105, 110, 99, 97, 114, 101, 59], [0x2105]), -- incare;
  ([105, 110, 102, 105, 110, 59], [0x221e]), -- infin;
  ([105, 110, 102, 105, 110, 116, 105, 101, 59], [0x29dd]), -- infintie;
  ([105, 110, 111, 100, 111, 116, 59], [0x131]), -- inodot;
  ([73, 110, 116, 59], [0x222c]), -- Int;
  ([105, 110, 116, 59], [0x222b]), -- int;
  ([105, 110, 116, 99, 97, 108, 59], [0x22ba]), -- intcal;
  ([105, 110, 116, 101, 103, 101, 114, 115, 59], [0x2124]), -- integers;
  ([73, 110, 116, 101, 103, 114, 97, 108, 59], [0x222b]), -- Integral;
  ([105, 110, 116, 101, 114, 99, 97, 108, 59], [0x22ba]), -- intercal;
  ([73, 110, 116, 101, 114, 115, 101, 99, 116, 105, 111, 110, 59], [0x22c2]), -- Intersection;
  ([105, 110, 116, 108, 97, 114, 104, 107, 59], [0x2a17]), -- intlarhk;
  ([105, 110, 116, 112, 114, 111, 100, 59], [0x2a3c])] -- intprod;

/-- Entries 800.. of `html5` (`kajiki/entities.py` 46-2278). -/
def html5Chunk4 : List (List Nat × List Nat) := [
  ([73, 110, 118, 105, 115, 105, 98, 108, 101, 67, 111, 109, 109, 97, 59], [0x2063]), -- InvisibleComma;
  ([73, 110, 118, 105, 115, 105, 98, 108, 101, 84, 105, 109, 101, 115, 59], [0x2062]), -- InvisibleTimes;
  ([73, 79, 99, 121, 59], [0x401]), -- IOcy;
  ([105, 111, 99, 121, 59], [0x451]), -- iocy;
  ([73, 111, 103, 111, 110, 59], [0x12e]), -- Iogon;
  ([105, 111, 103, 111, 110, 59], [0x12f]), -- iogon;
  ([73, 111, 112, 102, 59], [0x1d540]), -- Iopf;
  ([105, 111, 112, 102, 59], [0x1d55a]), -- iopf;
  ([73, 111, 116, 97, 59], [0x399]), -- Iota;
  ([105, 111, 116, 97, 59], [0x3b9]), -- iota;
  ([105, 112, 114, 111, 100, 59], [0x2a3c]), -- iprod;
  ([105, 113, 117, 101, 115, 116], [0xbf]), -- iquest
  ([105, 113, 117, 101, 115, 116, 59], [0xbf]), -- iquest;
  ([73, 115, 99, 114, 59], [0x2110]), -- Iscr;
  ([105, 115, 99, 114, 59], [0x1d4be]), -- iscr;
  ([105, 115, 105, 110, 59], [0x2208]), -- isin;
  ([105, 115, 105, 110, 100, 111, 116, 59], [0x22f5]), -- isindot;
  ([105, 115, 105, 110, 69, 59], [0x22f9]), -- isinE;
  ([105, 115, 105, 110, 115, 59], [0x22f4]), -- isins;
  ([105, 115, 105, 110, 115, 118, 59], [0x22f3]), -- isinsv;
  ([105, 115, 105, 110, 118, 59], [0x2208]), -- isinv;
  ([105, 116, 59], [0x2062]), -- it;
  ([73, 116, 105, 108, 100, 101, 59], [0x128]), -- Itilde;
  ([105, 116, 105, 108, 100, 101, 59], [0x129]), -- itilde;
  ([73, 117, 107, 99, 121, 59], [0x406]), -- Iukcy;
  ([105, 117, 107, 99, 121, 59], [0x456]), -- iukcy;
  ([73, 117, 109, 108], [0xcf]), -- Iuml
  ([105, 117, 109, 108], [0xef]), -- iuml
  ([73, 117, 109, 108, 59], [0xcf]), -- Iuml;
  ([105, 117, 109, 108, 59], [0xef]), -- iuml;
  ([74, 99, 105, 114, 99, 59], [0x134]), -- Jcirc;
  ([106, 99, 105, 114, 99, 59], [0x135]), -- jcirc;
  ([74, 99, 121, 59], [0x419]), -- Jcy;
  ([106, 99, 121, 59], [0x439]), -- jcy;
  ([74, 102, 114, 59], [0x1d50d]), -- Jfr;
  ([106, 102, 114, 59], [0x1d527]), -- jfr;
  ([106, 109, 97, 116, 104, 59], [0x237]), -- jmath;
  ([74, 111, 112, 102, 59], [0x1d541]), -- Jopf;
  ([106, 111, 112, 102, 59], [0x1d55b]), -- jopf;
  ([74, 115, 99, 114, 59], [0x1d4a5]), -- Jscr;
  ([106, 115, 99, 114, 59], [0x1d4bf]), -- jscr;
  ([74, 115, 101, 114, 99, 121, 59], [0x408]), -- Jsercy;
  ([106, 115, 101, 114, 99, 121, 59], [0x458]), -- jsercy;
  ([74, 117, 107, 99, 121, 59], [0x404]), -- Jukcy;
  ([106, 117, 107, 99, 121, 59], [0x454]), -- jukcy;
  ([75, 97, 112, 112, 97, 59], [0x39a]), -- Kappa;
  ([107, 97, 112, 112, 97, 59], [0x3ba]), -- kappa;
  ([107, 97, 112, 112, 97, 118, 59], [0x3f0]), -- kappav;
  ([75, 99, 101, 100, 105, 108, 59], [0x136]), -- Kcedil;
  ([107, 99, 101, 100, 105, 108, 59], [0x137]), -- kcedil;
  ([75, 99, 121, 59], [0x41a]), -- Kcy;
  ([107, 99, 121, 59], [0x43a]), -- kcy;
  ([75, 102, 114, 59], [0x1d50e]), -- Kfr;
  ([107, 102, 114, 59], [0x1d528]), -- kfr;
  ([107, 103, 114, 101, 101, 110, 59], [0x138]), -- kgreen;
  ([75, 72, 99, 121, 59], [0x425]), -- KHcy;
  ([107, 104, 99, 121, 59], [0x445]), -- khcy;
  ([75, 74, 99, 121, 59], [0x40c]), -- KJcy;
  ([107, 106, 99, 121, 59], [0x45c]), -- kjcy;
  ([75, 111, 112, 102, 59], [0x1d542]), -- Kopf;
  ([107, 111, 112, 102, 59], [0x1d55c]), -- kopf;
  ([75, 115, 99, 114, 59], [0x1d4a6]), -- Kscr;
  ([107, 115, 99, 114, 59], [0x1d4c0]), -- kscr;
  ([108, 65, 97, 114, 114, 59], [0x21da]), -- lAarr;
  ([76, 97, 99, 117, 116, 101, 59], [0x139]), -- Lacute;
  ([108, 97, 99, 117, 116, 101, 59], [0x13a]), -- lacute;
  ([108, 97, 101, 109, 112, 116, 121, 118, 59], [0x29b4]), -- laemptyv;
  ([108, 97, 103, 114, 97, 110, 59], [0x2112]), -- lagran;
  ([76, 97, 109, 98, 100, 97, 59], [0x39b]), -- Lambda;
  ([108, 97, 109, 98, 100, 97, 59], [0x3bb]), -- lambda;
  ([76, 97, 110, 103, 59], [0x27ea]), -- Lang;
  ([108, 97, 110, 103, 59], [0x27e8]), -- lang;
  ([108, 97, 110, 103, 100, 59], [0x2991]), -- langd;
  ([108, 97, 110, 103, 108, 101, 59], [0x27e8]), -- langle;
  ([108, 97, 112, 59], [0x2a85]), -- lap;
  ([76, 97, 112, 108, 97, 99, 101, 116, 114, 102, 59], [0x2112]), -- Laplacetrf;
  ([108, 97, 113, 117, 111], [0xab]), -- laquo
  ([108, 97, 113, 117, 111, 59], [0xab]), -- laquo;
  ([76, 97, 114, 114, 59], [0x219e]), -- Larr;
  ([108, 65, 114, 114, 59], [0x21d0]), -- lArr;
  ([108, 97, 114, 114, 59], [0x2190]), -- larr;
  ([108, 97, 114, 114, 98, 59], [0x21e4]), -- larrb;
  ([108, 97, 114, 114, 98, 102, 115, 59], [0x291f]), -- larrbfs;
  ([108, 97, 114, 114, 102, 115, 59], [0x291d]), -- larrfs;
  ([108, 97, 114, 114, 104, 107, 59], [0x21a9]), -- larrhk;
  ([108, 97, 114, 114, 108, 112, 59], [0x21ab]), -- larrlp;
  ([108, 97, 114, 114, 112, 108, 59], [0x2939]), -- larrpl;
  ([108, 97, 114, 114, 115, 105, 109, 59], [0x2973]), -- larrsim;
  ([108, 97, 114, 114, 116, 108, 59], [0x21a2]), -- larrtl;
  ([108, 97, 116, 59], [0x2aab]), -- lat;
  ([108, 65, 116, 97, 105, 108, 59], [0x291b]), -- lAtail;
  ([108, 97, 116, 97, 105, 108, 59], [0x2919]), -- latail;
  ([108, 97, 116, 101, 59], [0x2aad]), -- late;
  ([108, 97, 116, 101, 115, 59], [0x2aad, 0xfe00]), -- lates;
  ([108, 66, 97, 114, 114, 59], [0x290e]), -- lBarr;
  ([108, 98, 97, 114, 114, 59], [0x290c]), -- lbarr;
  ([108, 98, 98, 114, 107, 59], [0x2772]), -- lbbrk;
  ([108, 98, 114, 97, 99, 101, 59], [0x7b]), -- lbrace;
  ([108, 98, 114, 97, 99, 107, 59], [0x5b]), -- lbrack;
  ([108, 98, 114, 107, 101, 59], [0x298b]), -- lbrke;
  ([108, 98, 114, 107, 115, 108, 100, 59], [0x298f]), -- lbrksld;
  ([108, 98, 114, 107, 115, 108, 117, 59], [0x298d]), -- lbrkslu;
  ([76, 99, 97, 114, 111, 110, 59], [0x13d]), -- Lcaron;
  ([108, 99, 97, 114, 111, 110, 59], [0x13e]), -- lcaron;
  ([76, 99, 101, 100, 105, 108, 59], [0x13b]), -- Lcedil;
  ([108, 99, 101, 100, 105, 108, 59], [0x13c]), -- lcedil;
  ([108, 99, 101, 105, 108, 59], [0x2308]), -- lceil;
  ([108, 99, 117, 98, 59], [0x7b]), -- lcub;
  ([76, 99, 121, 59], [0x41b]), -- Lcy;
  ([108, 99, 121, 59], [0x43b]), -- lcy;
  ([108, 100, 99, 97, 59], [0x2936]), -- ldca;
  ([108, 100, 113, 117, 111, 59], [0x201c]), -- ldquo;
  ([108, 100, 113, 117, 111, 114, 59], [0x201e]), -- ldquor;
  ([108, 100, 114, 100, 104, 97, 114, 59], [0x2967]), -- ldrdhar;
  ([108, 100, 114, 117, 115, 104, 97, 114, 59], [0x294b]), -- ldrushar;
  ([108, 100, 115, 104, 59], [0x21b2]), -- ldsh;
  ([108, 69, 59], [0x2266]), -- lE;
  ([108, 101, 59], [0x2264]), -- le;
  ([76, 101, 102, 116, 65, 110, 103, 108, 101, 66, 114, 97, 99, 107, 101, 116, 59], [0x27e8]), -- LeftAngleBracket;
  ([76, 101, 102, 116, 65, 114, 114, 111, 119, 59], [0x2190]), -- LeftArrow;
  ([76, 101, 102, 116, 97, 114, 114, 111, 119, 59], [0x21d0]), -- Leftarrow;
  ([108, 101, 102, 116, 97, 114, 114, 111, 119, 59], [0x2190]), -- leftarrow;
  ([76, 101, 102, 116, 65, 114, 114, 111, 119, 66, 97, 114, 59], [0x21e4]), -- LeftArrowBar;
  ([76, 101, 102, 116, 65, 114, 114, 111, 119, 82, 105, 103, 104, 116, 65, 114, 114, 111, 119, 59], [0x21c6]), -- LeftArrowRightArrow;
  ([108, 101, 102, 116, 97, 114, 114, 111, 119, 116, 97, 105, 108, 59], [0x21a2]), -- leftarrowtail;
  ([76, 101, 102, 116, 67, 101, 105, 108, 105, 110, 103, 59], [0x2308]), -- LeftCeiling;
  ([76, 101, 102, 116, 68, 111, 117, 98, 108, 101, 66, 114, 97, 99, 107, 101, 116, 59], [0x27e6]), -- LeftDoubleBracket;
  ([76, 101, 102, 116, 68, 111, 119, 110, 84, 101, 101, 86, 101, 99, 116, 111, 114, 59], [0x2961]), -- LeftDownTeeVector;
  ([76, 101, 102, 116, 68, 111, 119, 110, 86, 101, 99, 116, 111, 114, 59], [0x21c3]), -- LeftDownVector;
  ([76, 101, 102, 116, 68, 111, 119, 110, 86, 101, 99, 116, 111, 114, 66, 97, 114, 59], [0x2959]), -- LeftDownVectorBar;
  ([76, 101, 102, 116, 70, 108, 111, 111, 114, 59], [0x230a]), -- LeftFloor;
  ([108, 101, 102, 116, 104, 97, 114, 112, 111, 111, 110, 100, 111, 119, 110, 59], [0x21bd]), -- leftharpoondown;
  ([108, 101, 102, 116, 104, 97, 114, 112, 111, 111, 110, 117, 112, 59], [0x21bc]), -- leftharpoonup;
  ([108, 101, 102, 116, 108, 101, 102, 116, 97, 114, 114, 111, 119, 115, 59], [0x21c7]), -- leftleftarrows;
  ([76, 101, 102, 116, 82, 105, 103, 104, 116, 65, 114, 114, 111, 119, 59], [0x2194]), -- LeftRightArrow;
  ([76, 101, 102, 116, 114, 105, 103, 104, 116, 97, 114, 114, 111, 119, 59], [0x21d4]), -- Leftrightarrow;
  ([108, 101, 102, 116, 114, 105, 103, 104, 116, 97, 114, 114, 111, 119, 59], [0x2194]), -- leftrightarrow;
  ([108, 101, 102, 116, 114, 105, 103, 104, 116, 97, 114, 114, 111, 119, 115, 59], [0x21c6]), -- leftrightarrows;
  ([108, 101, 102, 116, 114, 105, 103, 104, 116, 104, 97, 114, 112, 111, 111, 110, 115, 59], [0x21cb]), -- leftrightharpoons;
  ([108, 101, 102, 116, 114, 105, 103, 104, 116, 115, 113, 117, 105, 103, 97, 114, 114, 111, 119, 59], [0x21ad]), -- leftrightsquigarrow;
  ([76, 101, 102, 116, 82, 105, 103, 104, 116, 86, 101, 99, 116, 111, 114, 59], [0x294e]), -- LeftRightVector;
  ([76, 101, 102, 116, 84, 101, 101, 59], [0x22a3]), -- LeftTee;
  ([76, 101, 102, 116, 84, 101, 101, 65, 114, 114, 111, 119, 59], [0x21a4]), -- LeftTeeArrow;
  ([76, 101, 102, 116, 84, 101, 101, 86, 101, 99, 116, 111, 114, 59], [0x295a]), -- LeftTeeVector;
  ([108, 101, 102, 116, 116, 104, 114, 101, 101, 116, 105, 109, 101, 115, 59], [0x22cb]), -- leftthreetimes;
  ([76, 101, 102, 116, 84, 114, 105, 97, 110, 103, 108, 101, 59], [0x22b2]), -- LeftTriangle;
  ([76, 101, 102, 116, 84, 114, 105, 97, 110, 103, 108, 101, 66, 97, 114, 59], [0x29cf]), -- LeftTriangleBar;
  ([76, 101, 102, 116, 84, 114, 105, 97, 110, 103, 108, 101, 69, 113, 117, 97, 108, 59], [0x22b4]), -- LeftTriangleEqual;
  ([76, 101, 102, 116, 85, 112, 68, 111, 119, 110, 86, 101, 99, 116, 111, 114, 59], [0x2951]), -- LeftUpDownVector;
  ([76, 101, 102, 116, 85, 112, 84, 101, 101, 86, 101, 99, 116, 111, 114, 59], [0x2960]), -- LeftUpTeeVector;
  ([76, 101, 102, 116, 85, 112, 86, 101, 99, 116, 111, 114, 59], [0x21bf]), -- LeftUpVector;
  ([76, 101, 102, 116, 85, 112, 86, 101, 99, 116, 111, 114, 66, 97, 114, 59], [0x2958]), -- LeftUpVectorBar;
  ([76, 101, 102, 116, 86, 101, 99, 116, 111, 114, 59], [0x21bc]), -- LeftVector;
  ([76, 101, 102, 116, 86, 101, 99, 116, 111, 114, 66, 97, 114, 59], [0x2952]), -- LeftVectorBar;
  ([108, 69, 103, 59], [0x2a8b]), -- lEg;
  ([108, 101, 103, 59], [0x22da]), -- leg;
  ([108, 101, 113, 59], [0x2264]), -- leq;
  ([108, 101, 113, 113, 59], [0x2266]), -- leqq;
  ([108, 101, 113, 115, 108, 97, 110, 116, 59], [0x2a7d]), -- leqslant;
  ([108, 101, 115, 59], [0x2a7d]), -- les;
  ([108, 101, 115, 99, 99, 59], [0x2aa8]), -- lescc;
  ([108, 101, 115, 100, 111, 116, 59], [0x2a7f]), -- lesdot;
  ([108, 101, 115, 100, 111, 116, 111, 59], [0x2a81]), -- lesdoto;
  ([108, 101, 115, 100, 111, 116, 111, 114, 59], [0x2a83]), -- lesdotor;
  ([108, 101, 115, 103, 59], [0x22da, 0xfe00]), -- lesg;
  ([108, 101, 115, 103, 101, 115, 59], [0x2a93]), -- lesges;
  ([108, 101, 115, 115, 97, 112, 112, 114, 111, 120, 59], [0x2a85]), -- lessapprox;
  ([108, 101, 115, 115, 100, 111, 116, 59], [0x22d6]), -- lessdot;
  ([108, 101, 115, 115, 101, 113, 103, 116, 114, 59], [0x22da]), -- lesseqgtr;
  ([108, 101, 115, 115, 101, 113, 113, 103, 116, 114, 59], [0x2a8b]), -- lesseqqgtr;
  ([76, 101, 115, 115, 69, 113, 117, 97, 108, 71, 114, 101, 97, 116, 101, 114, 59], [0x22da]), -- LessEqualGreater;
  ([76, 101, 115, 115, 70, 117, 108, 108, 69, 113, 117, 97, 108, 59], [0x2266]), -- LessFullEqual;
  ([76, 101, 115, 115, 71, 114, 101, 97, 116, 101, 114, 59], [0x2276]), -- LessGreater;
  ([108, 101, 115, 115, 103, 116, 114, 59], [0x2276]), -- lessgtr;
  ([76, 101, 115, 115, 76, 101, 115, 115, 59], [0x2aa1]), -- LessLess;
  ([108, 101, 115, 115, 115, 105, 109, 59], [0x2272]), -- lesssim;
  ([76, 101, 115, 115, 83, 108, 97, 110, 116, 69, 113, 117, 97, 108, 59], [0x2a7d]), -- LessSlantEqual;
  ([76, 101, 115, 115, 84, 105, 108, 100, 101, 59], [0x2272]), -- LessTilde;
  ([108, 102, 105, 115, 104, 116, 59], [0x297c]), -- lfisht;
  ([108, 102, 108, 111, 111, 114, 59], [0x230a]), -- lfloor;
  ([76, 102, 114, 59], [0x1d50f]), -- Lfr;
  ([108, 102, 114, 59], [0x1d529]), -- lfr;
  ([108, 103, 59], [0x2276]), -- lg;
  ([108, 103, 69, 59], [0x2a91]), -- lgE;
  ([108, 72, 97, 114, 59], [0x2962]), -- lHar;
  ([108, 104, 97, 114, 100, 59], [0x21bd]), -- lhard;
  ([108, 104, 97, 114, 117, 59], [0x21bc]), -- lharu;
  ([108, 104, 97, 114, 117, 108, 59], [0x296a]), -- lharul;
  ([108, 104, 98, 108, 107, 59], [0x2584]), -- lhblk;
  ([76, 74, 99, 121, 59], [0x409]), -- LJcy;
  ([108, 106, 99, 121, 59], [0x459]), -- ljcy;
  ([76, 108, 59], [0x22d8]), -- Ll;
  ([108, 108, 59], [0x226a]), -- ll;
  ([108, 108, 97, 114, 114, 59], [0x21c7]), -- llarr;
  ([108, 108, 99, 111, 114, 110, 101, 114, 59], [0x231e]), -- llcorner;
  ([76, 108, 101, 102, 116, 97, 114, 114, 111, 119, 59], [0x21da]), -- Lleftarrow;
  ([108, 108, 104, 97, 114, 100, 59], [0x296b]), -- llhard;
  ([108, 108, 116, 114, 105, 59], [0x25fa]), -- lltri;
  ([76, 109, 105, 100, 111, 116, 59], [0x13f]), -- Lmidot;
  ([108, 109, 105, 100, 111, 116, 59], [0x140])] -- lmidot;

/-- Entries 1000.. of `html5` (`kajiki/entities.py` 46-2278). -/
def html5Chunk5 : List (List Nat × List Nat) := [
  ([108, 109, 111, 117, 115, 116, 59], [0x23b0]), -- lmoust;
  ([108, 109, 111, 117, 115, 116, 97, 99, 104, 101, 59], [0x23b0]), -- lmoustache;
  ([108, 110, 97, 112, 59], [0x2a89]), -- lnap;
  ([108, 110, 97, 112, 112, 114, 111, 120, 59], [0x2a89]), -- lnapprox;
  ([108, 110, 69, 59], [0x2268]), -- lnE;
  ([108, 110, 101, 59], [0x2a87]), -- lne;
  ([108, 110, 101, 113, 59], [0x2a87]), -- lneq;
  ([108, 110, 101, 113, 113, 59], [0x2268]), -- lneqq;
  ([108, 110, 115, 105, 109, 59], [0x22e6]), -- lnsim;
  ([108, 111, 97, 110, 103, 59], [0x27ec]), -- loang;
  ([108, 111, 97, 114, 114, 59], [0x21fd]), -- loarr;
  ([108, 111, 98, 114, 107, 59], [0x27e6]), -- lobrk;
  ([76, 111, 110, 103, 76, 101, 102, 116, 65, 114, 114, 111, 119, 59], [0x27f5]), -- LongLeftArrow;
  ([76, 111, 110, 103, 108, 101, 102, 116, 97, 114, 114, 111, 119, 59], [0x27f8]), -- Longleftarrow;
  ([108, 111, 110, 103, 108, 101, 102, 116, 97, 114, 114, 111, 119, 59], [0x27f5]), -- longleftarrow;
  ([76, 111, 110, 103, 76, 101, 102, 116, 82, 105, 103, 104, 116, 65, 114, 114, 111, 119, 59], [0x27f7]), -- LongLeftRightArrow;
  ([76, 111, 110, 103, 108, 101, 102, 116, 114, 105, 103, 104, 116, 97, 114, 114, 111, 119, 59], [0x27fa]), -- Longleftrightarrow;
  ([108, 111, 110, 103, 108, 101, 102, 116, 114, 105, 103, 104, 116, 97, 114, 114, 111, 119, 59], [0x27f7]), -- longleftrightarrow;
  ([108, 111, 110, 103, 109, 97, 112, 115, 116, 111, 59], [0x27fc]), -- longmapsto;
  ([76, 111, 110, 103, 82, 105, 103, 104, 116, 65, 114, 114, 111, 119, 59], [0x27f6]), -- LongRightArrow;
  ([76, 111, 110, 103, 114, 105, 103, 104, 116, 97, 114, 114, 111, 119, 59], [0x27f9]), -- Longrightarrow;
  ([108, 111, 110, 103, 114, 105, 103, 104, 116, 97, 114, 114, 111, 119, 59], [0x27f6]), -- longrightarrow;
  ([108, 111, 111, 112, 97, 114, 114, 111, 119, 108, 101, 102, 116, 59], [0x21ab]), -- looparrowleft;
  ([108, 111, 111, 112, 97, 114, 114, 111, 119, 114, 105, 103, 104, 116, 59], [0x21ac]), -- looparrowright;
  ([108, 111, 112, 97, 114, 59], [0x2985]), -- lopar;
  ([76, 111, 112, 102, 59], [0x1d543]), -- Lopf;
  ([108, 111, 112, 102, 59], [0x1d55d]), -- lopf;
  ([108, 111, 112, 108, 117, 115, 59], [0x2a2d]), -- loplus;
  ([108, 111, 116, 105, 109, 101, 115, 59], [0x2a34]), -- lotimes;
  ([108, 111, 119, 97, 115, 116, 59], [0x2217]), -- lowast;
  ([108, 111, 119, 98, 97, 114, 59], [0x5f]), -- lowbar;
  ([76, 111, 119, 101, 114, 76, 101, 102, 116, 65, 114, 114, 111, 119, 59], [0x2199]), -- LowerLeftArrow;
  ([76, 111, 119, 101, 114, 82, 105, 103, 104, 116, 65, 114, 114, 111, 119, 59], [0x2198]), -- LowerRightArrow;
  ([108, 111, 122, 59], [0x25ca]), -- loz;
  ([108, 111, 122, 101, 110, 103, 101, 59], [0x25ca]), -- lozenge;
  ([108, 111, 122, 102, 59], [0x29eb]), -- lozf;
  ([108, 112, 97, 114, 59], [0x28]), -- lpar;
  ([108, 112, 97, 114, 108, 116, 59], [0x2993]), -- lparlt;
  ([108, 114, 97, 114, 114, 59], [0x21c6]), -- lrarr;
  ([108, 114, 99, 111, 114, 110, 101, 114, 59], [0x231f]), -- lrcorner;
  ([108, 114, 104, 97, 114, 59], [0x21cb]), -- lrhar;
  ([108, 114, 104, 97, 114, 100, 59], [0x296d]), -- lrhard;
  ([108, 114, 109, 59], [0x200e]), -- lrm;
  ([108, 114, 116, 114, 105, 59], [0x22bf]), -- lrtri;
  ([108, 115, 97, 113, 117, 111, 59], [0x2039]), -- lsaquo;
  ([76, 115, 99, 114, 59], [0x2112]), -- Lscr;
  ([108, 115, 99, 114, 59], [0x1d4c1]), -- lscr;
  ([76, 115, 104, 59], [0x21b0]), -- Lsh;
  ([108, 115, 104, 59], [0x21b0]), -- lsh;
  ([108, 115, 105, 109, 59], [0x2272]), -- lsim;
  ([108, 115, 105, 109, 101, 59], [0x2a8d]), -- lsime;
  ([108, 115, 105, 109, 103, 59], [0x2a8f]), -- lsimg;
  ([108, 115, 113, 98, 59], [0x5b]), -- lsqb;
  ([108, 115, 113, 117, 111, 59], [0x2018]), -- lsquo;
  ([108, 115, 113, 117, 111, 114, 59], [0x201a]), -- lsquor;
  ([76, 115, 116, 114, 111, 107, 59], [0x141]), -- Lstrok;
  ([108, 115, 116, 114, 111, 107, 59], [0x142]), -- lstrok;
  ([76, 84], [0x3c]), -- LT
  ([108, 116], [0x3c]), -- lt
  ([76, 84, 59], [0x3c]), -- LT;
  ([76, 116, 59], [0x226a]), -- Lt;
  ([108, 116, 59], [0x3c]), -- lt;
  ([108, 116, 99, 99, 59], [0x2aa6]), -- ltcc;
  ([108, 116, 99, 105, 114, 59], [0x2a79]), -- ltcir;
  ([108, 116, 100, 111, 116, 59], [0x22d6]), -- ltdot;
  ([108, 116, 104, 114, 101, 101, 59], [0x22cb]), -- lthree;
  ([108, 116, 105, 109, 101, 115, 59], [0x22c9]), -- ltimes;
  ([108, 116, 108, 97, 114, 114, 59], [0x2976]), -- ltlarr;
  ([108, 116, 113, 117, 101, 115, 116, 59], [0x2a7b]), -- ltquest;
  ([108, 116, 114, 105, 59], [0x25c3]), -- ltri;
  ([108, 116, 114, 105, 101, 59], [0x22b4]), -- ltrie;
  ([108, 116, 114, 105, 102, 59], [0x25c2]), -- ltrif;
  ([108, 116, 114, 80, 97, 114, 59], [0x2996]), -- ltrPar;
  ([108, 117, 114, 100, 115, 104, 97, 114, 59], [0x294a]), -- lurdshar;
  ([108, 117, 114, 117, 104, 97, 114, 59], [0x2966]), -- luruhar;
  ([108, 118, 101, 114, 116, 110, 101, 113, 113, 59], [0x2268, 0xfe00]), -- lvertneqq;
  ([108, 118, 110, 69, 59], [0x2268, 0xfe00]), -- lvnE;
  ([109, 97, 99, 114], [0xaf]), -- macr
  ([109, 97, 99, 114, 59], [0xaf]), -- macr;
  ([109, 97, 108, 101, 59], [0x2642]), -- male;
  ([109, 97, 108, 116, 59], [0x2720]), -- malt;
  ([109, 97, 108, 116, 101, 115, 101, 59], [0x2720]), -- maltese;
  ([77, 97, 112, 59], [0x2905]), -- Map;
  ([109, 97, 112, 59], [0x21a6]), -- map;
  ([109, 97, 112, 115, 116, 111, 59], [0x21a6]), -- mapsto;
  ([109, 97, 112, 115, 116, 111, 100, 111, 119, 110, 59], [0x21a7]), -- mapstodown;
  ([109, 97, 112, 115, 116, 111, 108, 101, 102, 116, 59], [0x21a4]), -- mapstoleft;
  ([109, 97, 112, 115, 116, 111, 117, 112, 59], [0x21a5]), -- mapstoup;
  ([109, 97, 114, 107, 101, 114, 59], [0x25ae]), -- marker;
  ([109, 99, 111, 109, 109, 97, 59], [0x2a29]), -- mcomma;
  ([77, 99, 121, 59], [0x41c]), -- Mcy;
  ([109, 99, 121, 59], [0x43c]), -- mcy;
  ([109, 100, 97, 115, 104, 59], [0x2014]), -- mdash;
  ([109, 68, 68, 111, 116, 59], [0x223a]), -- mDDot;
  ([109, 101, 97, 115, 117, 114, 101, 100, 97, 110, 103, 108, 101, 59], [0x2221]), -- measuredangle;
  ([77, 101, 100, 105, 117, 109, 83, 112, 97, 99, 101, 59], [0x205f]), -- MediumSpace;
  ([77, 101, 108, 108, 105, 110, 116, 114, 102, 59], [0x2133]), -- Mellintrf;
  ([77, 102, 114, 59], [0x1d510]), -- Mfr;
  ([109, 102, 114, 59], [0x1d52a]), -- mfr;
  ([109, 104, 111, 59], [0x2127]), -- mho;
  ([109, 105, 99, 114, 111], [0xb5]), -- micro
  ([109, 105, 99, 114, 111, 59], [0xb5]), -- micro;
  ([109, 105, 100, 59], [0x2223]), -- mid;
  ([109, 105, 100, 97, 115, 116, 59], [0x2a]), -- midast;
  ([109, 105, 100, 99, 105, 114, 59], [0x2af0]), -- midcir;
  ([109, 105, 100, 100, 111, 116], [0xb7]), -- middot
  ([109, 105, 100, 100, 111, 116, 59], [0xb7]), -- middot;
  ([109, 105, 110, 117, 115, 59], [0x2212]), -- minus;
  ([109, 105, 110, 117, 115, 98, 59], [0x229f]), -- minusb;
  ([109, 105, 110, 117, 115, 100, 59], [0x2238]), -- minusd;
  ([109, 105, 110, 117, 115, 100, 117, 59], [0x2a2a]), -- minusdu;
  ([77, 105, 110, 117, 115, 80, 108, 117, 115, 59], [0x2213]), -- MinusPlus;
  ([109, 108, 99, 112, 59], [0x2adb]), -- mlcp;
  ([109, 108, 100, 114, 59], [0x2026]), -- mldr;
  ([109, 110, 112, 108, 117, 115, 59], [0x2213]), -- mnplus;
  ([109, 111, 100, 101, 108, 115, 59], [0x22a7]), -- models;
  ([77, 111, 112, 102, 59], [0x1d544]), -- Mopf;
  ([109, 111, 112, 102, 59], [0x1d55e]), -- mopf;
  ([109, 112, 59], [0x2213]), -- mp;
  ([77, 115, 99, 114, 59], [0x2133]), -- Mscr;
  ([109, 115, 99, 114, 59], [0x1d4c2]), -- mscr;
  ([109, 115, 116, 112, 111, 115, 59], [0x223e]), -- mstpos;
  ([77, 117, 59], [0x39c]), -- Mu;
  ([109, 117, 59], [0x3bc]), -- mu;
  ([109, 117, 108, 116, 105, 109, 97, 112, 59], [0x22b8]), -- multimap;
  ([109, 117, 109, 97, 112, 59], [0x22b8]), -- mumap;
  ([110, 97, 98, 108, 97, 59], [0x2207]), -- nabla;
  ([78, 97, 99, 117, 116, 101, 59], [0x143]), -- Nacute;
  ([110, 97, 99, 117, 116, 101, 59], [0x144]), -- nacute;
  ([110, 97, 110, 103, 59], [0x2220, 0x20d2]), -- nang;
  ([110, 97, 112, 59], [0x2249]), -- nap;
  ([110, 97, 112, 69, 59], [0x2a70, 0x338]), -- napE;
  ([110, 97, 112, 105, 100, 59], [0x224b, 0x338]), -- napid;
  ([110, 97, 112, 111, 115, 59], [0x149]), -- napos;
  ([110, 97, 112, 112, 114, 111, 120, 59], [0x2249]), -- napprox;
  ([110, 97, 116, 117, 114, 59], [0x266e]), -- natur;
  ([110, 97, 116, 117, 114, 97, 108, 59], [0x266e]), -- natural;
  ([110, 97, 116, 117, 114, 97, 108, 115, 59], [0x2115]), -- naturals;
  ([110, 98, 115, 112], [0xa0]), -- nbsp
  ([110, 98, 115, 112, 59], [0xa0]), -- nbsp;
  ([110, 98, 117, 109, 112, 59], [0x224e, 0x338]), -- nbump;
  ([110, 98, 117, 109, 112, 101, 59], [0x224f, 0x338]), -- nbumpe;
  ([110, 99, 97, 112, 59], [0x2a43]), -- ncap;
  ([78, 99, 97, 114, 111, 110, 59], [0x147]), -- Ncaron;
  ([110, 99, 97, 114, 111, 110, 59], [0x148]), -- ncaron;
  ([78, 99, 101, 100, 105, 108, 59], [0x145]), -- Ncedil;
  ([110, 99, 101, 100, 105, 108, 59], [0x146]), -- ncedil;
  ([110, 99, 111, 110, 103, 59], [0x2247]), -- ncong;
  ([110, 99, 111, 110, 103, 100, 111, 116, 59], [0x2a6d, 0x338]), -- ncongdot;
  ([110, 99, 117, 112, 59], [0x2a42]), -- ncup;
  ([78, 99, 121, 59], [0x41d]), -- Ncy;
  ([110, 99, 121, 59], [0x43d]), -- ncy;
  ([110, 100, 97, 115, 104, 59], [0x2013]), -- ndash;
  ([110, 101, 59], [0x2260]), -- ne;
  ([110, 101, 97, 114, 104, 107, 59], [0x2924]), -- nearhk;
  ([110, 101, 65, 114, 114, 59], [0x21d7]), -- neArr;
  ([110, 101, 97, 114, 114, 59], [0x2197]), -- nearr;
  ([110, 101, 97, 114, 114, 111, 119, 59], [0x2197]), -- nearrow;
  ([110, 101, 100, 111, 116, 59], [0x2250, 0x338]), -- nedot;
  ([78, 101, 103, 97, 116, 105, 118, 101, 77, 101, 100, 105, 117, 109, 83, 112, 97, 99, 101, 59], [0x200b]), -- NegativeMediumSpace;
  ([78, 101, 103, 97, 116, 105, 118, 101, 84, 104, 105, 99, 107, 83, 112, 97, 99, 101, 59], [0x200b]), -- NegativeThickSpace;
  ([78, 101, 103, 97, 116, 105, 118, 101, 84, 104, 105, 110, 83, 112, 97, 99, 101, 59], [0x200b]), -- NegativeThinSpace;
  ([78, 101, 103, 97, 116, 105, 118, 101, 86, 101, 114, 121, 84, 104, 105, 110, 83, 112, 97, 99, 101, 59], [0x200b]), -- NegativeVeryThinSpace;
  ([110, 101, 113, 117, 105, 118, 59], [0x2262]), -- nequiv;
  ([110, 101, 115, 101, 97, 114, 59], [0x2928]), -- nesear;
  ([110, 101, 115, 105, 109, 59], [0x2242, 0x338]), -- nesim;
  ([78, 101, 115, 116, 101, 100, 71, 114, 101, 97, 116, 101, 114, 71, 114, 101, 97, 116, 101, 114, 59], [0x226b]), -- NestedGreaterGreater;
  ([78, 101, 115, 116, 101, 100, 76, 101, 115, 115, 76, 101, 115, 115, 59], [0x226a]), -- NestedLessLess;
  ([78, 101, 119, 76, 105, 110, 101, 59], [0xa]), -- NewLine;
  ([110, 101, 120, 105, 115, 116, 59], [0x2204]), -- nexist;
  ([110, 101, 120, 105, 115, 116, 115, 59], [0x2204]), -- nexists;
  ([78, 102, 114, 59], [0x1d511]), -- Nfr;
  ([110, 102, 114, 59], [0x1d52b]), -- nfr;
  ([110, 103, 69, 59], [0x2267, 0x338]), -- ngE;
  ([110, 103, 101, 59], [0x2271]), -- nge;
  ([110, 103, 101, 113, 59], [0x2271]), -- ngeq;
  ([110, 103, 101, 113, 113, 59], [0x2267, 0x338]), -- ngeqq;
  ([110, 103, 101, 113, 115, 108, 97, 110, 116, 59], [0x2a7e, 0x338]), -- ngeqslant;
  ([110, 103, 101, 115, 59], [0x2a7e, 0x338]), -- nges;
  ([110, 71, 103, 59], [0x22d9, 0x338]), -- nGg;
  ([110, 103, 115, 105, 109, 59], [0x2275]), -- ngsim;
  ([110, 71, 116, 59], [0x226b, 0x20d2]), -- nGt;
  ([110, 103, 116, 59], [0x226f]), -- ngt;
  ([110, 103, 116, 114, 59], [0x226f]), -- ngtr;
  ([110, 71, 116, 118, 59], [0x226b, 0x338]), -- nGtv;
  ([110, 104, 65, 114, 114, 59], [0x21ce]), -- nhArr;
  ([110, 104, 97, 114, 114, 59], [0x21ae]), -- nharr;
  ([110, 104, 112, 97, 114, 59], [0x2af2]), -- nhpar;
  ([110, 105, 59], [0x220b]), -- ni;
  ([110, 105, 115, 59], [0x22fc]), -- nis;
  ([110, 105, 115, 100, 59], [0x22fa]), -- nisd;
  ([110, 105, 118, 59], [0x220b]), -- niv;
  ([78, 74, 99, 121, 59], [0x40a]), -- NJcy;
  ([110, 106, 99, 121, 59], [0x45a]), -- njcy;
  ([110, 108, 65, 114, 114, 59], [0x21cd]), -- nlArr;
  ([110, 108, 97, 114, 114, 59], [0x219a]), -- nlarr;
  ([110, 108, 100, 114, 59], [0x2025]), -- nldr;
  ([110, 108, 69, 59], [0x2266, 0x338]), -- nlE;
  ([110, 108, 101, 59], [0x2270]), -- nle;
  ([110, 76, 101, 102, 116, 97, 114, 114, 111, 119, 59], [0x21cd])] -- nLeftarrow;

/-- Entries 1200.. of `html5` (`kajiki/entities.py` 46-2278). -/
def html5Chunk6 : List (List Nat × List Nat) := [
  ([110, 108, 101, 102, 116, 97, 114, 114, 111, 119, 59], [0x219a]), -- nleftarrow;
  ([110, 76, 101, 102, 116, 114, 105, 103, 104, 116, 97, 114, 114, 111, 119, 59], [0x21ce]), -- nLeftrightarrow;
  ([110, 108, 101, 102, 116, 114, 105, 103, 104, 116, 97, 114, 114, 111, 119, 59], [0x21ae]), -- nleftrightarrow;
  ([110, 108, 101, 113, 59], [0x2270]), -- nleq;
  ([110, 108, 101, 113, 113, 59], [0x2266, 0x338]), -- nleqq;
  ([110, 108, 101, 113, 115, 108, 97, 110, 116, 59], [0x2a7d, 0x338]), -- nleqslant;
  ([110, 108, 101, 115, 59], [0x2a7d, 0x338]), -- nles;
  ([110, 108, 101, 115, 115, 59], [0x226e]), -- nless;
  ([110, 76, 108, 59], [0x22d8, 0x338]), -- nLl;
  ([110, 108, 115, 105, 109, 59], [0x2274]), -- nlsim;
  ([110, 76, 116, 59], [0x226a, 0x20d2]), -- nLt;
  ([110, 108, 116, 59], [0x226e]), -- nlt;
  ([110, 108, 116, 114, 105, 59], [0x22ea]), -- nltri;
  ([110, 108, 116, 114, 105, 101, 59], [0x22ec]), -- nltrie;
  ([110, 76, 116, 118, 59], [0x226a, 0x338]), -- nLtv;
  ([110, 109, 105, 100, 59], [0x2224]), -- nmid;
  ([78, 111, 66, 114, 101, 97, 107, 59], [0x2060]), -- NoBreak;
  ([78, 111, 110, 66, 114, 101, 97, 107, 105, 110, 103, 83, 112, 97, 99, 101, 59], [0xa0]), -- NonBreakingSpace;
  ([78, 111, 112, 102, 59], [0x2115]), -- Nopf;
  ([110, 111, 112, 102, 59], [0x1d55f]), -- nopf;
  ([110, 111, 116], [0xac]), -- not
  ([78, 111, 116, 59], [0x2aec]), -- Not;
  ([110, 111, 116, 59], [0xac]), -- not;
  ([78, 111, 116, 67, 111, 110, 103, 114, 117, 101, 110, 116, 59], [0x2262]), -- NotCongruent;
  ([78, 111, 116, 67, 117, 112, 67, 97, 112, 59], [0x226d]), -- NotCupCap;
  ([78, 111, 116, 68, 111, 117, 98, 108, 101, 86, 101, 114, 116, 105, 99, 97, 108, 66, 97, 114, 59], [0x2226]), -- NotDoubleVerticalBar;
  ([78, 111, 116, 69, 108, 101, 109, 101, 110, 116, 59], [0x2209]), -- NotElement;
  ([78, 111, 116, 69, 113, 117, 97, 108, 59], [0x2260]), -- NotEqual;
  ([78, 111, 116, 69, 113, 117, 97, 108, 84, 105, 108, 100, 101, 59], [0x2242, 0x338]), -- NotEqualTilde;
  ([78, 111, 116, 69, 120, 105, 115, 116, 115, 59], [0x2204]), -- NotExists;
  ([78, 111, 116, 71, 114, 101, 97, 116, 101, 114, 59], [0x226f]), -- NotGreater;
  ([78, 111, 116, 71, 114, 101, 97, 116, 101, 114, 69, 113, 117, 97, 108, 59], [0x2271]), -- NotGreaterEqual;
  ([78, 111, 116, 71, 114, 101, 97, 116, 101, 114, 70, 117, 108, 108, 69, 113, 117, 97, 108, 59], [0x2267, 0x338]), -- NotGreaterFullEqual;
  ([78, 111, 116, 71, 114, 101, 97, 116, 101, 114, 71, 114, 101, 97, 116, 101, 114, 59], [0x226b, 0x338]), -- NotGreaterGreater;
  ([78, 111, 116, 71, 114, 101, 97, 116, 101, 114, 76, 101, 115, 115, 59], [0x2279]), -- NotGreaterLess;
  ([78, 111, 116, 71, 114, 101, 97, 116, 101, 114, 83, 108, 97, 110, 116, 69, 113, 117, 97, 108, 59], [0x2a7e, 0x338]), -- NotGreaterSlantEqual;
  ([78, 111, 116, 71, 114, 101, 97, 116, 101, 114, 84, 105, 108, 100, 101, 59], [0x2275]), -- NotGreaterTilde;
  ([78, 111, 116, 72, 117, 109, 112, 68, 111, 119, 110, 72, 117, 109, 112, 59], [0x224e, 0x338]), -- NotHumpDownHump;
  ([78, 111, 116, 72, 117, 109, 112, 69, 113, 117, 97, 108, 59], [0x224f, 0x338]), -- NotHumpEqual;
  ([110, 111, 116, 105, 110, 59], [0x2209]), -- notin;
  ([110, 111, 116, 105, 110, 100, 111, 116, 59], [0x22f5, 0x338]), -- notindot;
  ([110, 111, 116, 105, 110, 69, 59], [0x22f9, 0x338]), -- notinE;
  ([110, 111, 116, 105, 110, 118, 97, 59], [0x2209]), -- notinva;
  ([110, 111, 116, 105, 110, 118, 98, 59], [0x22f7]), -- notinvb;
  ([110, 111, 116, 105, 110, 118, 99, 59], [0x22f6]), -- notinvc;
  ([78, 111, 116, 76, 101, 102, 116, 84, 114, 105, 97, 110, 103, 108, 101, 59], [0x22ea]), -- NotLeftTriangle;
  ([78, 111, 116, 76, 101, 102, 116, 84, 114, 105, 97, 110, 103, 108, 101, 66, 97, 114, 59], [0x29cf, 0x338]), -- NotLeftTriangleBar;
  ([78, 111, 116, 76, 101, 102, 116, 84, 114, 105, 97, 110, 103, 108, 101, 69, 113, 117, 97, 108, 59], [0x22ec]), -- NotLeftTriangleEqual;
  ([78, 111, 116, 76, 101, 115, 115, 59], [0x226e]), -- NotLess;
  ([78, 111, 116, 76, 101, 115, 115, 69, 113, 117, 97, 108, 59], [0x2270]), -- NotLessEqual;
  ([78, 111, 116, 76, 101, 115, 115, 71, 114, 101, 97, 116, 101, 114, 59], [0x2278]), -- NotLessGreater;
  ([78, 111, 116, 76, 101, 115, 115, 76, 101, 115, 115, 59], [0x226a, 0x338]), -- NotLessLess;
  ([78, 111, 116, 76, 101, 115, 115, 83, 108, 97, 110, 116, 69, 113, 117, 97, 108, 59], [0x2a7d, 0x338]), -- NotLessSlantEqual;
  ([78, 111, 116, 76, 101, 115, 115, 84, 105, 108, 100, 101, 59], [0x2274]), -- NotLessTilde;
  ([78, 111, 116, 78, 101, 115, 116, 101, 100, 71, 114, 101, 97, 116, 101, 114, 71, 114, 101, 97, 116, 101, 114, 59], [0x2aa2, 0x338]), -- NotNestedGreaterGreater;
  ([78, 111, 116, 78, 101, 115, 116, 101, 100, 76, 101, 115, 115, 76, 101, 115, 115, 59], [0x2aa1, 0x338]), -- NotNestedLessLess;
  ([110, 111, 116, 110, 105, 59], [0x220c]), -- notni;
  ([110, 111, 116, 110, 105, 118, 97, 59], [0x220c]), -- notniva;
  ([110, 111, 116, 110, 105, 118, 98, 59], [0x22fe]), -- notnivb;
  ([110, 111, 116, 110, 105, 118, 99, 59], [0x22fd]), -- notnivc;
  ([78, 111, 116, 80, 114, 101, 99, 101, 100, 101, 115, 59], [0x2280]), -- NotPrecedes;
  ([78, 111, 116, 80, 114, 101, 99, 101, 100, 101, 115, 69, 113, 117, 97, 108, 59], [0x2aaf, 0x338]), -- NotPrecedesEqual;
  ([78, 111, 116, 80, 114, 101, 99, 101, 100, 101, 115, 83, 108, 97, 110, 116, 69, 113, 117, 97, 108, 59], [0x22e0]), -- NotPrecedesSlantEqual;
  ([78, 111, 116, 82, 101, 118, 101, 114, 115, 101, 69, 108, 101, 109, 101, 110, 116, 59], [0x220c]), -- NotReverseElement;
  ([78, 111, 116, 82, 105, 103, 104, 116, 84, 114, 105, 97, 110, 103, 108, 101, 59], [0x22eb]), -- NotRightTriangle;
  ([78, 111, 116, 82, 105, 103, 104, 116, 84, 114, 105, 97, 110, 103, 108, 101, 66, 97, 114, 59], [0x29d0, 0x338]), -- NotRightTriangleBar;
  ([78, 111, 116, 82, 105, 103, 104, 116, 84, 114, 105, 97, 110, 103, 108, 101, 69, 113, 117, 97, 108, 59], [0x22ed]), -- NotRightTriangleEqual;
  ([78, 111, 116, 83, 113, 117, 97, 114, 101, 83, 117, 98, 115, 101, 116, 59], [0x228f, 0x338]), -- NotSquareSubset;
  ([78, 111, 116, 83, 113, 117, 97, 114, 101, 83, 117, 98, 115, 101, 116, 69, 113, 117, 97, 108, 59], [0x22e2]), -- NotSquareSubsetEqual;
  ([78, 111, 116, 83, 113, 117, 97, 114, 101, 83, 117, 112, 101, 114, 115, 101, 116, 59], [0x2290, 0x338]), -- NotSquareSuperset;
  ([78, 111, 116, 83, 113, 117, 97, 114, 101, 83, 117, 112, 101, 114, 115, 101, 116, 69, 113, 117, 97, 108, 59], [0x22e3]), -- NotSquareSupersetEqual;
  ([78, 111, 116, 83, 117, 98, 115, 101, 116, 59], [0x2282, 0x20d2]), -- NotSubset;
  ([78, 111, 116, 83, 117, 98, 115, 101, 116, 69, 113, 117, 97, 108, 59], [0x2288]), -- NotSubsetEqual;
  ([78, 111, 116, 83, 117, 99, 99, 101, 101, 100, 115, 59], [0x2281]), -- NotSucceeds;
  ([78, 111, 116, 83, 117, 99, 99, 101, 101, 100, 115, 69, 113, 117, 97, 108, 59], [0x2ab0, 0x338]), -- NotSucceedsEqual;
  ([78, 111, 116, 83, 117, 99, 99, 101, 101, 100, 115, 83, 108, 97, 110, 116, 69, 113, 117, 97, 108, 59], [0x22e1]), -- NotSucceedsSlantEqual;
  ([78, 111, 116, 83, 117, 99, 99, 101, 101, 100, 115, 84, 105, 108, 100, 101, 59], [0x227f, 0x338]), -- NotSucceedsTilde;
  ([78, 111, 116, 83, 117, 112, 101, 114, 115, 101, 116, 59], [0x2283, 0x20d2]), -- NotSuperset;
  ([78, 111, 116, 83, 117, 112, 101, 114, 115, 101, 116, 69, 113, 117, 97, 108, 59], [0x2289]), -- NotSupersetEqual;
  ([78, 111, 116, 84, 105, 108, 100, 101, 59], [0x2241]), -- NotTilde;
  ([78, 111, 116, 84, 105, 108, 100, 101, 69, 113, 117, 97, 108, 59], [0x2244]), -- NotTildeEqual;
  ([78, 111, 116, 84, 105, 108, 100, 101, 70, 117, 108, 108, 69, 113, 117, 97, 108, 59], [0x2247]), -- NotTildeFullEqual;
  ([78, 111, 116, 84, 105, 108, 100, 101, 84, 105, 108, 100, 101, 59], [0x2249]), -- NotTildeTilde;
  ([78, 111, 116, 86, 101, 114, 116, 105, 99, 97, 108, 66, 97, 114, 59], [0x2224]), -- NotVerticalBar;
  ([110, 112, 97, 114, 59], [0x2226]), -- npar;
  ([110, 112, 97, 114, 97, 108, 108, 101, 108, 59], [0x2226]), -- nparallel;
  ([110, 112, 97, 114, 115, 108, 59], [0x2afd, 0x20e5]), -- nparsl;
  ([110, 112, 97, 114, 116, 59], [0x2202, 0x338]), -- npart;
  ([110, 112, 111, 108, 105, 110, 116, 59], [0x2a14]), -- npolint;
  ([110, 112, 114, 59], [0x2280]), -- npr;
  ([110, 112, 114, 99, 117, 101, 59], [0x22e0]), -- nprcue;
  ([110, 112, 114, 101, 59], [0x2aaf, 0x338]), -- npre;
  ([110, 112, 114, 101, 99, 59], [0x2280]), -- nprec;
  ([110, 112, 114, 101, 99, 101, 113, 59], [0x2aaf, 0x338]), -- npreceq;
  ([110, 114, 65, 114, 114, 59], [0x21cf]), -- nrArr;
  ([110, 114, 97, 114, 114, 59], [0x219b]), -- nrarr;
  ([110, 114, 97, 114, 114, 99, 59], [0x2933, 0x338]), -- nrarrc;
  ([110, 114, 97, 114, 114, 119, 59], [0x219d, 0x338]), -- nrarrw;
  ([110, 82, 105, 103, 104, 116, 97, 114, 114, 111, 119, 59], [0x21cf]), -- nRightarrow;
  ([110, 114, 105, 103, 104, 116, 97, 114, 114, 111, 119, 59], [0x219b]), -- nrightarrow;
  ([110, 114, 116, 114, 105, 59], [0x22eb]), -- nrtri;
  ([110, 114, 116, 114, 105, 101, 59], [0x22ed]), -- nrtrie;
  ([110, 115, 99, 59], [0x2281]), -- nsc;
  ([110, 115, 99, 99, 117, 101, 59], [0x22e1]), -- nsccue;
  ([110, 115, 99, 101, 59], [0x2ab0, 0x338]), -- nsce;
  ([78, 115, 99, 114, 59], [0x1d4a9]), -- Nscr;
  ([110, 115, 99, 114, 59], [0x1d4c3]), -- nscr;
  ([110, 115, 104, 111, 114, 116, 109, 105, 100, 59], [0x2224]), -- nshortmid;
  ([110, 115, 104, 111, 114, 116, 112, 97, 114, 97, 108, 108, 101, 108, 59], [0x2226]), -- nshortparallel;
  ([110, 115, 105, 109, 59], [0x2241]), -- nsim;
  ([110, 115, 105, 109, 101, 59], [0x2244]), -- nsime;
  ([110, 115, 105, 109, 101, 113, 59], [0x2244]), -- nsimeq;
  ([110, 115, 109, 105, 100, 59], [0x2224]), -- nsmid;
  ([110, 115, 112, 97, 114, 59], [0x2226]), -- nspar;
  ([110, 115, 113, 115, 117, 98, 101, 59], [0x22e2]), -- nsqsube;
  ([110, 115, 113, 115, 117, 112, 101, 59], [0x22e3]), -- nsqsupe;
  ([110, 115, 117, 98, 59], [0x2284]), -- nsub;
  ([110, 115, 117, 98, 69, 59], [0x2ac5, 0x338]), -- nsubE;
  ([110, 115, 117, 98, 101, 59], [0x2288]), -- nsube;
  ([110, 115, 117, 98, 115, 101, 116, 59], [0x2282, 0x20d2]), -- nsubset;
  ([110, 115, 117, 98, 115, 101, 116, 101, 113, 59], [0x2288]), -- nsubseteq;
  ([110, 115, 117, 98, 115, 101, 116, 101, 113, 113, 59], [0x2ac5, 0x338]), -- nsubseteqq;
  ([110, 115, 117, 99, 99, 59], [0x2281]), -- nsucc;
  ([110, 115, 117, 99, 99, 101, 113, 59], [0x2ab0, 0x338]), -- nsucceq;
  ([110, 115, 117, 112, 59], [0x2285]), -- nsup;
  ([110, 115, 117, 112, 69, 59], [0x2ac6, 0x338]), -- nsupE;
  ([110, 115, 117, 112, 101, 59], [0x2289]), -- nsupe;
  ([110, 115, 117, 112, 115, 101, 116, 59], [0x2283, 0x20d2]), -- nsupset;
  ([110, 115, 117, 112, 115, 101, 116, 101, 113, 59], [0x2289]), -- nsupseteq;
  ([110, 115, 117, 112, 115, 101, 116, 101, 113, 113, 59], [0x2ac6, 0x338]), -- nsupseteqq;
  ([110, 116, 103, 108, 59], [0x2279]), -- ntgl;
  ([78, 116, 105, 108, 100, 101], [0xd1]), -- Ntilde
  ([110, 116, 105, 108, 100, 101], [0xf1]), -- ntilde
  ([78, 116, 105, 108, 100, 101, 59], [0xd1]), -- Ntilde;
  ([110, 116, 105, 108, 100, 101, 59], [0xf1]), -- ntilde;
  ([110, 116, 108, 103, 59], [0x2278]), -- ntlg;
  ([110, 116, 114, 105, 97, 110, 103, 108, 101, 108, 101, 102, 116, 59], [0x22ea]), -- ntriangleleft;
  ([110, 116, 114, 105, 97, 110, 103, 108, 101, 108, 101, 102, 116, 101, 113, 59], [0x22ec]), -- ntrianglelefteq;
  ([110, 116, 114, 105, 97, 110, 103, 108, 101, 114, 105, 103, 104, 116, 59], [0x22eb]), -- ntriangleright;
  ([110, 116, 114, 105, 97, 110, 103, 108, 101, 114, 105, 103, 104, 116, 101, 113, 59], [0x22ed]), -- ntrianglerighteq;
  ([78, 117, 59], [0x39d]), -- Nu;
  ([110, 117, 59], [0x3bd]), -- nu;
  ([110, 117, 109, 59], [0x23]), -- num;
  ([110, 117, 109, 101, 114, 111, 59], [0x2116]), -- numero;
  ([110, 117, 109, 115, 112, 59], [0x2007]), -- numsp;
  ([110, 118, 97, 112, 59], [0x224d, 0x20d2]), -- nvap;
  ([110, 86, 68, 97, 115, 104, 59], [0x22af]), -- nVDash;
  ([110, 86, 100, 97, 115, 104, 59], [0x22ae]), -- nVdash;
  ([110, 118, 68, 97, 115, 104, 59], [0x22ad]), -- nvDash;
  ([110, 118, 100, 97, 115, 104, 59], [0x22ac]), -- nvdash;
  ([110, 118, 103, 101, 59], [0x2265, 0x20d2]), -- nvge;
  ([110, 118, 103, 116, 59], [0x3e, 0x20d2]), -- nvgt;
  ([110, 118, 72, 97, 114, 114, 59], [0x2904]), -- nvHarr;
  ([110, 118, 105, 110, 102, 105, 110, 59], [0x29de]), -- nvinfin;
  ([110, 118, 108, 65, 114, 114, 59], [0x2902]), -- nvlArr;
  ([110, 118, 108, 101, 59], [0x2264, 0x20d2]), -- nvle;
  ([110, 118, 108, 116, 59], [0x3c, 0x20d2]), -- nvlt;
  ([110, 118, 108, 116, 114, 105, 101, 59], [0x22b4, 0x20d2]), -- nvltrie;
  ([110, 118, 114, 65, 114, 114, 59], [0x2903]), -- nvrArr;
  ([110, 118, 114, 116, 114, 105, 101, 59], [0x22b5, 0x20d2]), -- nvrtrie;
  ([110, 118, 115, 105, 109, 59], [0x223c, 0x20d2]), -- nvsim;
  ([110, 119, 97, 114, 104, 107, 59], [0x2923]), -- nwarhk;
  ([110, 119, 65, 114, 114, 59], [0x21d6]), -- nwArr;
  ([110, 119, 97, 114, 114, 59], [0x2196]), -- nwarr;
  ([110, 119, 97, 114, 114, 111, 119, 59], [0x2196]), -- nwarrow;
  ([110, 119, 110, 101, 97, 114, 59], [0x2927]), -- nwnear;
  ([79, 97, 99, 117, 116, 101], [0xd3]), -- Oacute
  ([111, 97, 99, 117, 116, 101], [0xf3]), -- oacute
  ([79, 97, 99, 117, 116, 101, 59], [0xd3]), -- Oacute;
  ([111, 97, 99, 117, 116, 101, 59], [0xf3]), -- oacute;
  ([111, 97, 115, 116, 59], [0x229b]), -- oast;
  ([111, 99, 105, 114, 59], [0x229a]), -- ocir;
  ([79, 99, 105, 114, 99], [0xd4]), -- Ocirc
  ([111, 99, 105, 114, 99], [0xf4]), -- ocirc
  ([79, 99, 105, 114, 99, 59], [0xd4]), -- Ocirc;
  ([111, 99, 105, 114, 99, 59], [0xf4]), -- ocirc;
  ([79, 99, 121, 59], [0x41e]), -- Ocy;
  ([111, 99, 121, 59], [0x43e]), -- ocy;
  ([111, 100, 97, 115, 104, 59], [0x229d]), -- odash;
  ([79, 100, 98, 108, 97, 99, 59], [0x150]), -- Odblac;
  ([111, 100, 98, 108, 97, 99, 59], [0x151]), -- odblac;
  ([111, 100, 105, 118, 59], [0x2a38]), -- odiv;
  ([111, 100, 111, 116, 59], [0x2299]), -- odot;
  ([111, 100, 115, 111, 108, 100, 59], [0x29bc]), -- odsold;
  ([79, 69, 108, 105, 103, 59], [0x152]), -- OElig;
  ([111, 101, 108, 105, 103, 59], [0x153]), -- oelig;
  ([111, 102, 99, 105, 114, 59], [0x29bf]), -- ofcir;
  ([79, 102, 114, 59], [0x1d512]), -- Ofr;
  ([111, 102, 114, 59], [0x1d52c]), -- ofr;
  ([111, 103, 111, 110, 59], [0x2db]), -- ogon;
  ([79, 103, 114, 97, 118, 101], [0xd2]), -- Ograve
  ([111, 103, 114, 97, 118, 101], [0xf2]), -- ograve
  ([79, 103, 114, 97, 118, 101, 59], [0xd2]), -- Ograve;
  ([111, 103, 114, 97, 118, 101, 59], [0xf2]), -- ograve;
  ([111, 103, 116, 59], [0x29c1]), -- ogt;
  ([111, 104, 98, 97, 114, 59], [0x29b5]), -- ohbar;
  ([111, 104, 109, 59], [0x3a9]), -- ohm;
  ([111, 105, 110, 116, 59], [0x222e]), -- oint;
  ([111, 108, 97, 114, 114, 59], [0x21ba]), -- olarr;
  ([111, 108, 99, 105, 114, 59], [0x29be])] -- olcir;

/-- Entries 1400.. of `html5` (`kajiki/entities.py` 46-2278). -/
def html5Chunk7 : List (List Nat × List Nat) := [
  ([111, 108, 99, 114, 111, 115, 115, 59], [0x29bb]), -- olcross;
  ([111, 108, 105, 110, 101, 59], [0x203e]), -- oline;
  ([111, 108, 116, 59], [0x29c0]), -- olt;
  ([79, 109, 97, 99, 114, 59], [0x14c]), -- Omacr;
  ([111, 109, 97, 99, 114, 59], [0x14d]), -- omacr;
  ([79, 109, 101, 103, 97, 59], [0x3a9]), -- Omega;
  ([111, 109, 101, 103, 97, 59], [0x3c9]), -- omega;
  ([79, 109, 105, 99, 114, 111, 110, 59], [0x39f]), -- Omicron;
  ([111, 109, 105, 99, 114, 111, 110, 59], [0x3bf]), -- omicron;
  ([111, 109, 105, 100, 59], [0x29b6]), -- omid;
  ([111, 109, 105, 110, 117, 115, 59], [0x2296]), -- ominus;
  ([79, 111, 112, 102, 59], [0x1d546]), -- Oopf;
  ([111, 111, 112, 102, 59], [0x1d560]), -- oopf;
  ([111, 112, 97, 114, 59], [0x29b7]), -- opar;
  ([79, 112, 101, 110, 67, 117, 114, 108, 121, 68, 111, 117, 98, 108, 101, 81, 117, 111, 116, 101, 59], [0x201c]), -- OpenCurlyDoubleQuote;
  ([79, 112, 101, 110, 67, 117, 114, 108, 121, 81, 117, 111, 116, 101, 59], [0x2018]), -- OpenCurlyQuote;
  ([111, 112, 101, 114, 112, 59], [0x29b9]), -- operp;
  ([111, 112, 108, 117, 115, 59], [0x2295]), -- oplus;
  ([79, 114, 59], [0x2a54]), -- Or;
  ([111, 114, 59], [0x2228]), -- or;
  ([111, 114, 97, 114, 114, 59], [0x21bb]), -- orarr;
  ([111, 114, 100, 59], [0x2a5d]), -- ord;
  ([111, 114, 100, 101, 114, 59], [0x2134]), -- order;
  ([111, 114, 100, 101, 114, 111, 102, 59], [0x2134]), -- orderof;
  ([111, 114, 100, 102], [0xaa]), -- ordf
  ([111, 114, 100, 102, 59], [0xaa]), -- ordf;
  ([111, 114, 100, 109], [0xba]), -- ordm
  ([111, 114, 100, 109, 59], [0xba]), -- ordm;
  ([111, 114, 105, 103, 111, 102, 59], [0x22b6]), -- origof;
  ([111, 114, 111, 114, 59], [0x2a56]), -- oror;
  ([111, 114, 115, 108, 111, 112, 101, 59], [0x2a57]), -- orslope;
  ([111, 114, 118, 59], [0x2a5b]), -- orv;
  ([111, 83, 59], [0x24c8]), -- oS;
  ([79, 115, 99, 114, 59], [0x1d4aa]), -- Oscr;
  ([111, 115, 99, 114, 59], [0x2134]), -- oscr;
  ([79, 115, 108, 97, 115, 104], [0xd8]), -- Oslash
  ([111, 115, 108, 97, 115, 104], [0xf8]), -- oslash
  ([79, 115, 108, 97, 115, 104, 59], [0xd8]), -- Oslash;
  ([111, 115, 108, 97, 115, 104, 59], [0xf8]), -- oslash;
  ([111, 115, 111, 108, 59], [0x2298]), -- osol;
  ([79, 116, 105, 108, 100, 101], [0xd5]), -- Otilde
  ([111, 116, 105, 108, 100, 101], [0xf5]), -- otilde
  ([79, 116, 105, 108, 100, 101, 59], [0xd5]), -- Otilde;
  ([111, 116, 105, 108, 100, 101, 59], [0xf5]), -- otilde;
  ([79, 116, 105, 109, 101, 115, 59], [0x2a37]), -- Otimes;
  ([111, 116, 105, 109, 101, 115, 59], [0x2297]), -- otimes;
  ([111, 116, 105, 109, 101, 115, 97, 115, 59], [0x2a36]), -- otimesas;
  ([79, 117, 109, 108], [0xd6]), -- Ouml
  ([111, 117, 109, 108], [0xf6]), -- ouml
  ([79, 117, 109, 108, 59], [0xd6]), -- Ouml;
  ([111, 117, 109, 108, 59], [0xf6]), -- ouml;
  ([111, 118, 98, 97, 114, 59], [0x233d]), -- ovbar;
  ([79, 118, 101, 114, 66, 97, 114, 59], [0x203e]), -- OverBar;
  ([79, 118, 101, 114, 66, 114, 97, 99, 101, 59], [0x23de]), -- OverBrace;
  ([79, 118, 101, 114, 66, 114, 97, 99, 107, 101, 116, 59], [0x23b4]), -- OverBracket;
  ([79, 118, 101, 114, 80, 97, 114, 101, 110, 116, 104, 101, 115, 105, 115, 59], [0x23dc]), -- OverParenthesis;
  ([112, 97, 114, 59], [0x2225]), -- par;
  ([112, 97, 114, 97], [0xb6]), -- para
  ([112, 97, 114, 97, 59], [0xb6]), -- para;
  ([112, 97, 114, 97, 108, 108, 101, 108, 59], [0x2225]), -- parallel;
  ([112, 97, 114, 115, 105, 109, 59], [0x2af3]), -- parsim;
  ([112, 97, 114, 115, 108, 59], [0x2afd]), -- parsl;
  ([112, 97, 114, 116, 59], [0x2202]), -- part;
  ([80, 97, 114, 116, 105, 97, 108, 68, 59], [0x2202]), -- PartialD;
  ([80, 99, 121, 59], [0x41f]), -- Pcy;
  ([112, 99, 121, 59], [0x43f]), -- pcy;
  ([112, 101, 114, 99, 110, 116, 59], [0x25]), -- percnt;
  ([112, 101, 114, 105, 111, 100, 59], [0x2e]), -- period;
  ([112, 101, 114, 109, 105, 108, 59], [0x2030]), -- permil;
  ([112, 101, 114, 112, 59], [0x22a5]), -- perp;
  ([112, 101, 114, 116, 101, 110, 107, 59], [0x2031]), -- pertenk;
  ([80, 102, 114, 59], [0x1d513]), -- Pfr;
  ([112, 102, 114, 59], [0x1d52d]), -- pfr;
  ([80, 104, 105, 59], [0x3a6]), -- Phi;
  ([112, 104, 105, 59], [0x3c6]), -- phi;
  ([112, 104, 105, 118, 59], [0x3d5]), -- phiv;
  ([112, 104, 109, 109, 97, 116, 59], [0x2133]), -- phmmat;
  ([112, 104, 111, 110, 101, 59], [0x260e]), -- phone;
  ([80, 105, 59], [0x3a0]), -- Pi;
  ([112, 105, 59], [0x3c0]), -- pi;
  ([112, 105, 116, 99, 104, 102, 111, 114, 107, 59], [0x22d4]), -- pitchfork;
  ([112, 105, 118, 59], [0x3d6]), -- piv;
  ([112, 108, 97, 110, 99, 107, 59], [0x210f]), -- planck;
  ([112, 108, 97, 110, 99, 107, 104, 59], [0x210e]), -- planckh;
  ([112, 108, 97, 110, 107, 118, 59], [0x210f]), -- plankv;
  ([112, 108, 117, 115, 59], [0x2b]), -- plus;
  ([112, 108, 117, 115, 97, 99, 105, 114, 59], [0x2a23]), -- plusacir;
  ([112, 108, 117, 115, 98, 59], [0x229e]), -- plusb;
  ([112, 108, 117, 115, 99, 105, 114, 59], [0x2a22]), -- pluscir;
  ([112, 108, 117, 115, 100, 111, 59], [0x2214]), -- plusdo;
  ([112, 108, 117, 115, 100, 117, 59], [0x2a25]), -- plusdu;
  ([112, 108, 117, 115, 101, 59], [0x2a72]), -- pluse;
  ([80, 108, 117, 115, 77, 105, 110, 117, 115, 59], [0xb1]), -- PlusMinus;
  ([112, 108, 117, 115, 109, 110], [0xb1]), -- plusmn
  ([112, 108, 117, 115, 109, 110, 59], [0xb1]), -- plusmn;
  ([112, 108, 117, 115, 115, 105, 109, 59], [0x2a26]), -- plussim;
  ([112, 108, 117, 115, 116, 119, 111, 59], [0x2a27]), -- plustwo;
  ([112, 109, 59], [0xb1]), -- pm;
  ([80, 111, 105, 110, 99, 97, 114, 101, 112, 108, 97, 110, 101, 59], [0x210c]), -- Poincareplane;
  ([112, 111, 105, 110, 116, 105, 110, 116, 59], [0x2a15]), -- pointint;
  ([80, 111, 112, 102, 59], [0x2119]), -- Popf;
  ([112, 111, 112, 102, 59], [0x1d561]), -- popf;
  ([112, 111, 117, 110, 100], [0xa3]), -- pound
  ([112, 111, 117, 110, 100, 59], [0xa3]), -- pound;
  ([80, 114, 59], [0x2abb]), -- Pr;
  ([112, 114, 59], [0x227a]), -- pr;
  ([112, 114, 97, 112, 59], [0x2ab7]), -- prap;
  ([112, 114, 99, 117, 101, 59], [0x227c]), -- prcue;
  ([112, 114, 69, 59], [0x2ab3]), -- prE;
  ([112, 114, 101, 59], [0x2aaf]), -- pre;
  ([112, 114, 101, 99, 59], [0x227a]), -- prec;
  ([112, 114, 101, 99, 97, 112, 112, 114, 111, 120, 59], [0x2ab7]), -- precapprox;
  ([112, 114, 101, 99, 99, 117, 114, 108, 121, 101, 113, 59], [0x227c]), -- preccurlyeq;
  ([80, 114, 101, 99, 101, 100, 101, 115, 59], [0x227a]), -- Precedes;
  ([80, 114, 101, 99, 101, 100, 101, 115, 69, 113, 117, 97, 108, 59], [0x2aaf]), -- PrecedesEqual;
  ([80, 114, 101, 99, 101, 100, 101, 115, 83, 108, 97, 110, 116, 69, 113, 117, 97, 108, 59], [0x227c]), -- PrecedesSlantEqual;
  ([80, 114, 101, 99, 101, 100, 101, 115, 84, 105, 108, 100, 101, 59], [0x227e]), -- PrecedesTilde;
  ([112, 114, 101, 99, 101, 113, 59], [0x2aaf]), -- preceq;
  ([112, 114, 101, 99, 110, 97, 112, 112, 114, 111, 120, 59], [0x2ab9]), -- precnapprox;
  ([112, 114, 101, 99, 110, 101, 113, 113, 59], [0x2ab5]), -- precneqq;
  ([112, 114, 101, 99, 110, 115, 105, 109, 59], [0x22e8]), -- precnsim;
  ([112, 114, 101, 99, 115, 105, 109, 59], [0x227e]), -- precsim;
  ([80, 114, 105, 109, 101, 59], [0x2033]), -- Prime;
  ([112, 114, 105, 109, 101, 59], [0x2032]), -- prime;
  ([112, 114, 105, 109, 101, 115, 59], [0x2119]), -- primes;
  ([112, 114, 110, 97, 112, 59], [0x2ab9]), -- prnap;
  ([112, 114, 110, 69, 59], [0x2ab5]), -- prnE;
  ([112, 114, 110, 115, 105, 109, 59], [0x22e8]), -- prnsim;
  ([112, 114, 111, 100, 59], [0x220f]), -- prod;
  ([80, 114, 111, 100, 117, 99, 116, 59], [0x220f]), -- Product;
  ([112, 114, 111, 102, 97, 108, 97, 114, 59], [0x232e]), -- profalar;
  ([112, 114, 111, 102, 108, 105, 110, 101, 59], [0x2312]), -- profline;
  ([112, 114, 111, 102, 115, 117, 114, 102, 59], [0x2313]), -- profsurf;
  ([112, 114, 111, 112, 59], [0x221d]), -- prop;
  ([80, 114, 111, 112, 111, 114, 116, 105, 111, 110, 59], [0x2237]), -- Proportion;
  ([80, 114, 111, 112, 111, 114, 116, 105, 111, 110, 97, 108, 59], [0x221d]), -- Proportional;
  ([112, 114, 111, 112, 116, 111, 59], [0x221d]), -- propto;
  ([112, 114, 115, 105, 109, 59], [0x227e]), -- prsim;
  ([112, 114, 117, 114, 101, 108, 59], [0x22b0]), -- prurel;
  ([80, 115, 99, 114, 59], [0x1d4ab]), -- Pscr;
  ([112, 115, 99, 114, 59], [0x1d4c5]), -- pscr;
  ([80, 115, 105, 59], [0x3a8]), -- Psi;
  ([112, 115, 105, 59], [0x3c8]), -- psi;
  ([112, 117, 110, 99, 115, 112, 59], [0x2008]), -- puncsp;
  ([81, 102, 114, 59], [0x1d514]), -- Qfr;
  ([113, 102, 114, 59], [0x1d52e]), -- qfr;
  ([113, 105, 110, 116, 59], [0x2a0c]), -- qint;
  ([81, 111, 112, 102, 59], [0x211a]), -- Qopf;
  ([113, 111, 112, 102, 59], [0x1d562]), -- qopf;
  ([113, 112, 114, 105, 109, 101, 59], [0x2057]), -- qprime;
  ([81, 115, 99, 114, 59], [0x1d4ac]), -- Qscr;
  ([113, 115, 99, 114, 59], [0x1d4c6]), -- qscr;
  ([113, 117, 97, 116, 101, 114, 110, 105, 111, 110, 115, 59], [0x210d]), -- quaternions;
  ([113, 117, 97, 116, 105, 110, 116, 59], [0x2a16]), -- quatint;
  ([113, 117, 101, 115, 116, 59], [0x3f]), -- quest;
  ([113, 117, 101, 115, 116, 101, 113, 59], [0x225f]), -- questeq;
  ([81, 85, 79, 84], [0x22]), -- QUOT
  ([113, 117, 111, 116], [0x22]), -- quot
  ([81, 85, 79, 84, 59], [0x22]), -- QUOT;
  ([113, 117, 111, 116, 59], [0x22]), -- quot;
  ([114, 65, 97, 114, 114, 59], [0x21db]), -- rAarr;
  ([114, 97, 99, 101, 59], [0x223d, 0x331]), -- race;
  ([82, 97, 99, 117, 116, 101, 59], [0x154]), -- Racute;
  ([114, 97, 99, 117, 116, 101, 59], [0x155]), -- racute;
  ([114, 97, 100, 105, 99, 59], [0x221a]), -- radic;
  ([114, 97, 101, 109, 112, 116, 121, 118, 59], [0x29b3]), -- raemptyv;
  ([82, 97, 110, 103, 59], [0x27eb]), -- Rang;
  ([114, 97, 110, 103, 59], [0x27e9]), -- rang;
  ([114, 97, 110, 103, 100, 59], [0x2992]), -- rangd;
  ([114, 97, 110, 103, 101, 59], [0x29a5]), -- range;
  ([114, 97, 110, 103, 108, 101, 59], [0x27e9]), -- rangle;
  ([114, 97, 113, 117, 111], [0xbb]), -- raquo
  ([114, 97, 113, 117, 111, 59], [0xbb]), -- raquo;
  ([82, 97, 114, 114, 59], [0x21a0]), -- Rarr;
  ([114, 65, 114, 114, 59], [0x21d2]), -- rArr;
  ([114, 97, 114, 114, 59], [0x2192]), -- rarr;
  ([114, 97, 114, 114, 97, 112, 59], [0x2975]), -- rarrap;
  ([114, 97, 114, 114, 98, 59], [0x21e5]), -- rarrb;
  ([114, 97, 114, 114, 98, 102, 115, 59], [0x2920]), -- rarrbfs;
  ([114, 97, 114, 114, 99, 59], [0x2933]), -- rarrc;
  ([114, 97, 114, 114, 102, 115, 59], [0x291e]), -- rarrfs;
  ([114, 97, 114, 114, 104, 107, 59], [0x21aa]), -- rarrhk;
  ([114, 97, 114, 114, 108, 112, 59], [0x21ac]), -- rarrlp;
  ([114, 97, 114, 114, 112, 108, 59], [0x2945]), -- rarrpl;
  ([114, 97, 114, 114, 115, 105, 109, 59], [0x2974]), -- rarrsim;
  ([82, 97, 114, 114, 116, 108, 59], [0x2916]), -- Rarrtl;
  ([114, 97, 114, 114, 116, 108, 59], [0x21a3]), -- rarrtl;
  ([114, 97, 114, 114, 119, 59], [0x219d]), -- rarrw;
  ([114, 65, 116, 97, 105, 108, 59], [0x291c]), -- rAtail;
  ([114, 97, 116, 97, 105, 108, 59], [0x291a]), -- ratail;
  ([114, 97, 116, 105, 111, 59], [0x2236]), -- ratio;
  ([114, 97, 116, 105, 111, 110, 97, 108, 115, 59], [0x211a]), -- rationals;
  ([82, 66, 97, 114, 114, 59], [0x2910]), -- RBarr;
  ([114, 66, 97, 114, 114, 59], [0x290f]), -- rBarr;
  ([114, 98, 97, 114, 114, 59], [0x290d]), -- rbarr;
  ([114, 98, 98, 114, 107, 59], [0x2773]), -- rbbrk;
  ([114, 98, 114, 97, 99, 101, 59], [0x7d]), -- rbrace;
  ([114, 98, 114, 97, 99, 107, 59], [0x5d]), -- rbrack;
  ([114, 98, 114, 107, 101, 59], [0x298c]), -- rbrke;
  ([114, 98, 114, 107, 115, 108, 100, 59], [0x298e])] -- rbrksld;

/-- Entries 1600.. of `html5` (`kajiki/entities.py` 46-2278). -/
def html5Chunk8 : List (List Nat × List Nat) := [
  ([114, 98, 114, 107, 115, 108, 117, 59], [0x2990]), -- rbrkslu;
  ([82, 99, 97, 114, 111, 110, 59], [0x158]), -- Rcaron;
  ([114, 99, 97, 114, 111, 110, 59], [0x159]), -- rcaron;
  ([82, 99, 101, 100, 105, 108, 59], [0x156]), -- Rcedil;
  ([114, 99, 101, 100, 105, 108, 59], [0x157]), -- rcedil;
  ([114, 99, 101, 105, 108, 59], [0x2309]), -- rceil;
  ([114, 99, 117, 98, 59], [0x7d]), -- rcub;
  ([82, 99, 121, 59], [0x420]), -- Rcy;
  ([114, 99, 121, 59], [0x440]), -- rcy;
  ([114, 100, 99, 97, 59], [0x2937]), -- rdca;
  ([114, 100, 108, 100, 104, 97, 114, 59], [0x2969]), -- rdldhar;
  ([114, 100, 113, 117, 111, 59], [0x201d]), -- rdquo;
  ([114, 100, 113, 117, 111, 114, 59], [0x201d]), -- rdquor;
  ([114, 100, 115, 104, 59], [0x21b3]), -- rdsh;
  ([82, 101, 59], [0x211c]), -- Re;
  ([114, 101, 97, 108, 59], [0x211c]), -- real;
  ([114, 101, 97, 108, 105, 110, 101, 59], [0x211b]), -- realine;
  ([114, 101, 97, 108, 112, 97, 114, 116, 59], [0x211c]), -- realpart;
  ([114, 101, 97, 108, 115, 59], [0x211d]), -- reals;
  ([114, 101, 99, 116, 59], [0x25ad]), -- rect;
  ([82, 69, 71], [0xae]), -- REG
  ([114, 101, 103], [0xae]), -- reg
  ([82, 69, 71, 59], [0xae]), -- REG;
  ([114, 101, 103, 59], [0xae]), -- reg;
  ([82, 101, 118, 101, 114, 115, 101, 69, 108, 101, 109, 101, 110, 116, 59], [0x220b]), -- ReverseElement;
  ([82, 101, 118, 101, 114, 115, 101, 69, 113, 117, 105, 108, 105, 98, 114, 105, 117, 109, 59], [0x21cb]), -- ReverseEquilibrium;
  ([82, 101, 118, 101, 114, 115, 101, 85, 112, 69, 113, 117, 105, 108, 105, 98, 114, 105, 117, 109, 59], [0x296f]), -- ReverseUpEquilibrium;
  ([114, 102, 105, 115, 104, 116, 59], [0x297d]), -- rfisht;
  ([114, 102, 108, 111, 111, 114, 59], [0x230b]), -- rfloor;
  ([82, 102, 114, 59], [0x211c]), -- Rfr;
  ([114, 102, 114, 59], [0x1d52f]), -- rfr;
  ([114, 72, 97, 114, 59], [0x2964]), -- rHar;
  ([114, 104, 97, 114, 100, 59], [0x21c1]), -- rhard;
  ([114, 104, 97, 114, 117, 59], [0x21c0]), -- rharu;
  ([114, 104, 97, 114, 117, 108, 59], [0x296c]), -- rharul;
  ([82, 104, 111, 59], [0x3a1]), -- Rho;
  ([114, 104, 111, 59], [0x3c1]), -- rho;
  ([114, 104, 111, 118, 59], [0x3f1]), -- rhov;
  ([82, 105, 103, 104, 116, 65, 110, 103, 108, 101, 66, 114, 97, 99, 107, 101, 116, 59], [0x27e9]), -- RightAngleBracket;
  ([82, 105, 103, 104, 116, 65, 114, 114, 111, 119, 59], [0x2192]), -- RightArrow;
  ([82, 105, 103, 104, 116, 97, 114, 114, 111, 119, 59], [0x21d2]), -- Rightarrow;
  ([114, 105, 103, 104, 116, 97, 114, 114, 111, 119, 59], [0x2192]), -- rightarrow;
  ([82, 105, 103, 104, 116, 65, 114, 114, 111, 119, 66, 97, 114, 59], [0x21e5]), -- RightArrowBar;
  ([82, 105, 103, 104, 116, 65, 114, 114, 111, 119, 76, 101, 102, 116, 65, 114, 114, 111, 119, 59], [0x21c4]), -- RightArrowLeftArrow;
  ([114, 105, 103, 104, 116, 97, 114, 114, 111, 119, 116, 97, 105, 108, 59], [0x21a3]), -- rightarrowtail;
  ([82, 105, 103, 104, 116, 67, 101, 105, 108, 105, 110, 103, 59], [0x2309]), -- RightCeiling;
  ([82, 105, 103, 104, 116, 68, 111, 117, 98, 108, 101, 66, 114, 97, 99, 107, 101, 116, 59], [0x27e7]), -- RightDoubleBracket;
  ([82, 105, 103, 104, 116, 68, 111, 119, 110, 84, 101, 101, 86, 101, 99, 116, 111, 114, 59], [0x295d]), -- RightDownTeeVector;
  ([82, 105, 103, 104, 116, 68, 111, 119, 110, 86, 101, 99, 116, 111, 114, 59], [0x21c2]), -- RightDownVector;
  ([82, 105, 103, 104, 116, 68, 111, 119, 110, 86, 101, 99, 116, 111, 114, 66, 97, 114, 59], [0x2955]), -- RightDownVectorBar;
  ([82, 105, 103, 104, 116, 70, 108, 111, 111, 114, 59], [0x230b]), -- RightFloor;
  ([114, 105, 103, 104, 116, 104, 97, 114, 112, 111, 111, 110, 100, 111, 119, 110, 59], [0x21c1]), -- rightharpoondown;
  ([114, 105, 103, 104, 116, 104, 97, 114, 112, 111, 111, 110, 117, 112, 59], [0x21c0]), -- rightharpoonup;
  ([114, 105, 103, 104, 116, 108, 101, 102, 116, 97, 114, 114, 111, 119, 115, 59], [0x21c4]), -- rightleftarrows;
  ([114, 105, 103, 104, 116, 108, 101, 102, 116, 104, 97, 114, 112, 111, 111, 110, 115, 59], [0x21cc]), -- rightleftharpoons;
  ([114, 105, 103, 104, 116, 114, 105, 103, 104, 116, 97, 114, 114, 111, 119, 115, 59], [0x21c9]), -- rightrightarrows;
  ([114, 105, 103, 104, 116, 115, 113, 117, 105, 103, 97, 114, 114, 111, 119, 59], [0x219d]), -- rightsquigarrow;
  ([82, 105, 103, 104, 116, 84, 101, 101, 59], [0x22a2]), -- RightTee;
  ([82, 105, 103, 104, 116, 84, 101, 101, 65, 114, 114, 111, 119, 59], [0x21a6]), -- RightTeeArrow;
  ([82, 105, 103, 104, 116, 84, 101, 101, 86, 101, 99, 116, 111, 114, 59], [0x295b]), -- RightTeeVector;
  ([114, 105, 103, 104, 116, 116, 104, 114, 101, 101, 116, 105, 109, 101, 115, 59], [0x22cc]), -- rightthreetimes;
  ([82, 105, 103, 104, 116, 84, 114, 105, 97, 110, 103, 108, 101, 59], [0x22b3]), -- RightTriangle;
  ([82, 105, 103, 104, 116, 84, 114, 105, 97, 110, 103, 108, 101, 66, 97, 114, 59], [0x29d0]), -- RightTriangleBar;
  ([82, 105, 103, 104, 116, 84, 114, 105, 97, 110, 103, 108, 101, 69, 113, 117, 97, 108, 59], [0x22b5]), -- RightTriangleEqual;
  ([82, 105, 103, 104, 116, 85, 112, 68, 111, 119, 110, 86, 101, 99, 116, 111, 114, 59], [0x294f]), -- RightUpDownVector;
  ([82, 105, 103, 104, 116, 85, 112, 84, 101, 101, 86, 101, 99, 116, 111, 114, 59], [0x295c]), -- RightUpTeeVector;
  ([82, 105, 103, 104, 116, 85, 112, 86, 101, 99, 116, 111, 114, 59], [0x21be]), -- RightUpVector;
  ([82, 105, 103, 104, 116, 85, 112, 86, 101, 99, 116, 111, 114, 66, 97, 114, 59], [0x2954]), -- RightUpVectorBar;
  ([82, 105, 103, 104, 116, 86, 101, 99, 116, 111, 114, 59], [0x21c0]), -- RightVector;
  ([82, 105, 103, 104, 116, 86, 101, 99, 116, 111, 114, 66, 97, 114, 59], [0x2953]), -- RightVectorBar;
  ([114, 105, 110, 103, 59], [0x2da]), -- ring;
  ([114, 105, 115, 105, 110, 103, 100, 111, 116, 115, 101, 113, 59], [0x2253]), -- risingdotseq;
  ([114, 108, 97, 114, 114, 59], [0x21c4]), -- rlarr;
  ([114, 108, 104, 97, 114, 59], [0x21cc]), -- rlhar;
  ([114, 108, 109, 59], [0x200f]), -- rlm;
  ([114, 109, 111, 117, 115, 116, 59], [0x23b1]), -- rmoust;
  ([114, 109, 111, 117, 115, 116, 97, 99, 104, 101, 59], [0x23b1]), -- rmoustache;
  ([114, 110, 109, 105, 100, 59], [0x2aee]), -- rnmid;
  ([114, 111, 97, 110, 103, 59], [0x27ed]), -- roang;
  ([114, 111, 97, 114, 114, 59], [0x21fe]), -- roarr;
  ([114, 111, 98, 114, 107, 59], [0x27e7]), -- robrk;
  ([114, 111, 112, 97, 114, 59], [0x2986]), -- ropar;
  ([82, 111, 112, 102, 59], [0x211d]), -- Ropf;
  ([114, 111, 112, 102, 59], [0x1d563]), -- ropf;
  ([114, 111, 112, 108, 117, 115, 59], [0x2a2e]), -- roplus;
  ([114, 111, 116, 105, 109, 101, 115, 59], [0x2a35]), -- rotimes;
  ([82, 111, 117, 110, 100, 73, 109, 112, 108, 105, 101, 115, 59], [0x2970]), -- RoundImplies;
  ([114, 112, 97, 114, 59], [0x29]), -- rpar;
  ([114, 112, 97, 114, 103, 116, 59], [0x2994]), -- rpargt;
  ([114, 112, 112, 111, 108, 105, 110, 116, 59], [0x2a12]), -- rppolint;
  ([114, 114, 97, 114, 114, 59], [0x21c9]), -- rrarr;
  ([82, 114, 105, 103, 104, 116, 97, 114, 114, 111, 119, 59], [0x21db]), -- Rrightarrow;
  ([114, 115, 97, 113, 117, 111, 59], [0x203a]), -- rsaquo;
  ([82, 115, 99, 114, 59], [0x211b]), -- Rscr;
  ([114, 115, 99, 114, 59], [0x1d4c7]), -- rscr;
  ([82, 115, 104, 59], [0x21b1]), -- Rsh;
  ([114, 115, 104, 59], [0x21b1]), -- rsh;
  ([114, 115, 113, 98, 59], [0x5d]), -- rsqb;
  ([114, 115, 113, 117, 111, 59], [0x2019]), -- rsquo;
  ([114, 115, 113, 117, 111, 114, 59], [0x2019]), -- rsquor;
  ([114, 116, 104, 114, 101, 101, 59], [0x22cc]), -- rthree;
  ([114, 116, 105, 109, 101, 115, 59], [0x22ca]), -- rtimes;
  ([114, 116, 114, 105, 59], [0x25b9]), -- rtri;
  ([114, 116, 114, 105, 101, 59], [0x22b5]), -- rtrie;
  ([114, 116, 114, 105, 102, 59], [0x25b8]), -- rtrif;
  ([114, 116, 114, 105, 108, 116, 114, 105, 59], [0x29ce]), -- rtriltri;
  ([82, 117, 108, 101, 68, 101, 108, 97, 121, 101, 100, 59], [0x29f4]), -- RuleDelayed;
  ([114, 117, 108, 117, 104, 97, 114, 59], [0x2968]), -- ruluhar;
  ([114, 120, 59], [0x211e]), -- rx;
  ([83, 97, 99, 117, 116, 101, 59], [0x15a]), -- Sacute;
  ([115, 97, 99, 117, 116, 101, 59], [0x15b]), -- sacute;
  ([115, 98, 113, 117, 111, 59], [0x201a]), -- sbquo;
  ([83, 99, 59], [0x2abc]), -- Sc;
  ([115, 99, 59], [0x227b]), -- sc;
  ([115, 99, 97, 112, 59], [0x2ab8]), -- scap;
  ([83, 99, 97, 114, 111, 110, 59], [0x160]), -- Scaron;
  ([115, 99, 97, 114, 111, 110, 59], [0x161]), -- scaron;
  ([115, 99, 99, 117, 101, 59], [0x227d]), -- sccue;
  ([115, 99, 69, 59], [0x2ab4]), -- scE;
  ([115, 99, 101, 59], [0x2ab0]), -- sce;
  ([83, 99, 101, 100, 105, 108, 59], [0x15e]), -- Scedil;
  ([115, 99, 101, 100, 105, 108, 59], [0x15f]), -- scedil;
  ([83, 99, 105, 114, 99, 59], [0x15c]), -- Scirc;
  ([115, 99, 105, 114, 99, 59], [0x15d]), -- scirc;
  ([115, 99, 110, 97, 112, 59], [0x2aba]), -- scnap;
  ([115, 99, 110, 69, 59], [0x2ab6]), -- scnE;
  ([115, 99, 110, 115, 105, 109, 59], [0x22e9]), -- scnsim;
  ([115, 99, 112, 111, 108, 105, 110, 116, 59], [0x2a13]), -- scpolint;
  ([115, 99, 115, 105, 109, 59], [0x227f]), -- scsim;
  ([83, 99, 121, 59], [0x421]), -- Scy;
  ([115, 99, 121, 59], [0x441]), -- scy;
  ([115, 100, 111, 116, 59], [0x22c5]), -- sdot;
  ([115, 100, 111, 116, 98, 59], [0x22a1]), -- sdotb;
  ([115, 100, 111, 116, 101, 59], [0x2a66]), -- sdote;
  ([115, 101, 97, 114, 104, 107, 59], [0x2925]), -- searhk;
  ([115, 101, 65, 114, 114, 59], [0x21d8]), -- seArr;
  ([115, 101, 97, 114, 114, 59], [0x2198]), -- searr;
  ([115, 101, 97, 114, 114, 111, 119, 59], [0x2198]), -- searrow;
  ([115, 101, 99, 116], [0xa7]), -- sect
  ([115, 101, 99, 116, 59], [0xa7]), -- sect;
  ([115, 101, 109, 105, 59], [0x3b]), -- semi;
  ([115, 101, 115, 119, 97, 114, 59], [0x2929]), -- seswar;
  ([115, 101, 116, 109, 105, 110, 117, 115, 59], [0x2216]), -- setminus;
  ([115, 101, 116, 109, 110, 59], [0x2216]), -- setmn;
  ([115, 101, 120, 116, 59], [0x2736]), -- sext;
  ([83, 102, 114, 59], [0x1d516]), -- Sfr;
  ([115, 102, 114, 59], [0x1d530]), -- sfr;
  ([115, 102, 114, 111, 119, 110, 59], [0x2322]), -- sfrown;
  ([115, 104, 97, 114, 112, 59], [0x266f]), -- sharp;
  ([83, 72, 67, 72, 99, 121, 59], [0x429]), -- SHCHcy;
  ([115, 104, 99, 104, 99, 121, 59], [0x449]), -- shchcy;
  ([83, 72, 99, 121, 59], [0x428]), -- SHcy;
  ([115, 104, 99, 121, 59], [0x448]), -- shcy;
  ([83, 104, 111, 114, 116, 68, 111, 119, 110, 65, 114, 114, 111, 119, 59], [0x2193]), -- ShortDownArrow;
  ([83, 104, 111, 114, 116, 76, 101, 102, 116, 65, 114, 114, 111, 119, 59], [0x2190]), -- ShortLeftArrow;
  ([115, 104, 111, 114, 116, 109, 105, 100, 59], [0x2223]), -- shortmid;
  ([115, 104, 111, 114, 116, 112, 97, 114, 97, 108, 108, 101, 108, 59], [0x2225]), -- shortparallel;
  ([83, 104, 111, 114, 116, 82, 105, 103, 104, 116, 65, 114, 114, 111, 119, 59], [0x2192]), -- ShortRightArrow;
  ([83, 104, 111, 114, 116, 85, 112, 65, 114, 114, 111, 119, 59], [0x2191]), -- ShortUpArrow;
  ([115, 104, 121], [0xad]), -- shy
  ([115, 104, 121, 59], [0xad]), -- shy;
  ([83, 105, 103, 109, 97, 59], [0x3a3]), -- Sigma;
  ([115, 105, 103, 109, 97, 59], [0x3c3]), -- sigma;
  ([115, 105, 103, 109, 97, 102, 59], [0x3c2]), -- sigmaf;
  ([115, 105, 103, 109, 97, 118, 59], [0x3c2]), -- sigmav;
  ([115, 105, 109, 59], [0x223c]), -- sim;
  ([115, 105, 109, 100, 111, 116, 59], [0x2a6a]), -- simdot;
  ([115, 105, 109, 101, 59], [0x2243]), -- sime;
  ([115, 105, 109, 101, 113, 59], [0x2243]), -- simeq;
  ([115, 105, 109, 103, 59], [0x2a9e]), -- simg;
  ([115, 105, 109, 103, 69, 59], [0x2aa0]), -- simgE;
  ([115, 105, 109, 108, 59], [0x2a9d]), -- siml;
  ([115, 105, 109, 108, 69, 59], [0x2a9f]), -- simlE;
  ([115, 105, 109, 110, 101, 59], [0x2246]), -- simne;
  ([115, 105, 109, 112, 108, 117, 115, 59], [0x2a24]), -- simplus;
  ([115, 105, 109, 114, 97, 114, 114, 59], [0x2972]), -- simrarr;
  ([115, 108, 97, 114, 114, 59], [0x2190]), -- slarr;
  ([83, 109, 97, 108, 108, 67, 105, 114, 99, 108, 101, 59], [0x2218]), -- SmallCircle;
  ([115, 109, 97, 108, 108, 115, 101, 116, 109, 105, 110, 117, 115, 59], [0x2216]), -- smallsetminus;
  ([115, 109, 97, 115, 104, 112, 59], [0x2a33]), -- smashp;
  ([115, 109, 101, 112, 97, 114, 115, 108, 59], [0x29e4]), -- smeparsl;
  ([115, 109, 105, 100, 59], [0x2223]), -- smid;
  ([115, 109, 105, 108, 101, 59], [0x2323]), -- smile;
  ([115, 109, 116, 59], [0x2aaa]), -- smt;
  ([115, 109, 116, 101, 59], [0x2aac]), -- smte;
  ([115, 109, 116, 101, 115, 59], [0x2aac, 0xfe00]), -- smtes;
  ([83, 79, 70, 84, 99, 121, 59], [0x42c]), -- SOFTcy;
  ([115, 111, 102, 116, 99, 121, 59], [0x44c]), -- softcy;
  ([115, 111, 108, 59], [0x2f]), -- sol;
  ([115, 111, 108, 98, 59], [0x29c4]), -- solb;
  ([115, 111, 108, 98, 97, 114, 59], [0x233f]), -- solbar;
  ([83, 111, 112, 102, 59], [0x1d54a]), -- Sopf;
  ([115, 111, 112, 102, 59], [0x1d564]), -- sopf;
  ([115, 112, 97, 100, 101, 115, 59], [0x2660]), -- spades;
  ([115, 112, 97, 100, 101, 115, 117, 105, 116, 59], [0x2660]), -- spadesuit;
  ([115, 112, 97, 114, 59], [0x2225]), -- spar;
  ([115, 113, 99, 97, 112, 59], [0x2293]), -- sqcap;
  ([115, 113, 99, 97, 112, 115, 59], [0x2293, 0xfe00]), -- sqcaps;
  ([115, 113, 99, 117, 112, 59], [0x2294]), -- sqcup;
  ([115, 113, 99, 117, 112, 115, 59], [0x2294, 0xfe00])] -- sqcups;

/-- Entries 1800.. of `html5` (`kajiki/entities.py` 46-2278). -/
def html5Chunk9 : List (List Nat × List Nat) := [
  ([83, 113, 114, 116, 59], [0x221a]), -- Sqrt;
  ([115, 113, 115, 117, 98, 59], [0x228f]), -- sqsub;
  ([115, 113, 115, 117, 98, 101, 59], [0x2291]), -- sqsube;
  ([115, 113, 115, 117, 98, 115, 101, 116, 59], [0x228f]), -- sqsubset;
  ([115, 113, 115, 117, 98, 115, 101, 116, 101, 113, 59], [0x2291]), -- sqsubseteq;
  ([115, 113, 115, 117, 112, 59], [0x2290]), -- sqsup;
  ([115, 113, 115, 117, 112, 101, 59], [0x2292]), -- sqsupe;
  ([115, 113, 115, 117, 112, 115, 101, 116, 59], [0x2290]), -- sqsupset;
  ([115, 113, 115, 117, 112, 115, 101, 116, 101, 113, 59], [0x2292]), -- sqsupseteq;
  ([115, 113, 117, 59], [0x25a1]), -- squ;
  ([83, 113, 117, 97, 114, 101, 59], [0x25a1]), -- Square;
  ([115, 113, 117, 97, 114, 101, 59], [0x25a1]), -- square;
  ([83, 113, 117, 97, 114, 101, 73, 110, 116, 101, 114, 115, 101, 99, 116, 105, 111, 110, 59], [0x2293]), -- SquareIntersection;
  ([83, 113, 117, 97, 114, 101, 83, 117, 98, 115, 101, 116, 59], [0x228f]), -- SquareSubset;
  ([83, 113, 117, 97, 114, 101, 83, 117, 98, 115, 101, 116, 69, 113, 117, 97, 108, 59], [0x2291]), -- SquareSubsetEqual;
  ([83, 113, 117, 97, 114, 101, 83, 117, 112, 101, 114, 115, 101, 116, 59], [0x2290]), -- SquareSuperset;
  ([83, 113, 117, 97, 114, 101, 83, 117, 112, 101, 114, 115, 101, 116, 69, 113, 117, 97, 108, 59], [0x2292]), -- SquareSupersetEqual;
  ([83, 113, 117, 97, 114, 101, 85, 110, 105, 111, 110, 59], [0x2294]), -- SquareUnion;
  ([115, 113, 117, 97, 114, 102, 59], [0x25aa]), -- squarf;
  ([115, 113, 117, 102, 59], [0x25aa]), -- squf;
  ([115, 114, 97, 114, 114, 59], [0x2192]), -- srarr;
  ([83, 115, 99, 114, 59], [0x1d4ae]), -- Sscr;
  ([115, 115, 99, 114, 59], [0x1d4c8]), -- sscr;
  ([115, 115, 101, 116, 109, 110, 59], [0x2216]), -- ssetmn;
  ([115, 115, 109, 105, 108, 101, 59], [0x2323]), -- ssmile;
  ([115, 115, 116, 97, 114, 102, 59], [0x22c6]), -- sstarf;
  ([83, 116, 97, 114, 59], [0x22c6]), -- Star;
  ([115, 116, 97, 114, 59], [0x2606]), -- star;
  ([115, 116, 97, 114, 102, 59], [0x2605]), -- starf;
  ([115, 116, 114, 97, 105, 103, 104, 116, 101, 112, 115, 105, 108, 111, 110, 59], [0x3f5]), -- straightepsilon;
  ([115, 116, 114, 97, 105, 103, 104, 116, 112, 104, 105, 59], [0x3d5]), -- straightphi;
  ([115, 116, 114, 110, 115, 59], [0xaf]), -- strns;
  ([83, 117, 98, 59], [0x22d0]), -- Sub;
  ([115, 117, 98, 59], [0x2282]), -- sub;
  ([115, 117, 98, 100, 111, 116, 59], [0x2abd]), -- subdot;
  ([115, 117, 98, 69, 59], [0x2ac5]), -- subE;
  ([115, 117, 98, 101, 59], [0x2286]), -- sube;
  ([115, 117, 98, 101, 100, 111, 116, 59], [0x2ac3]), -- subedot;
  ([115, 117, 98, 109, 117, 108, 116, 59], [0x2ac1]), -- submult;
  ([115, 117, 98, 110, 69, 59], [0x2acb]), -- subnE;
  ([115, 117, 98, 110, 101, 59], [0x228a]), -- subne;
  ([115, 117, 98, 112, 108, 117, 115, 59], [0x2abf]), -- subplus;
  ([115, 117, 98, 114, 97, 114, 114, 59], [0x2979]), -- subrarr;
  ([83, 117, 98, 115, 101, 116, 59], [0x22d0]), -- Subset;
  ([115, 117, 98, 115, 101, 116, 59], [0x2282]), -- subset;
  ([115, 117, 98, 115, 101, 116, 101, 113, 59], [0x2286]), -- subseteq;
  ([115, 117, 98, 115, 101, 116, 101, 113, 113, 59], [0x2ac5]), -- subseteqq;
  ([83, 117, 98, 115, 101, 116, 69, 113, 117, 97, 108, 59], [0x2286]), -- SubsetEqual;
  ([115, 117, 98, 115, 101, 116, 110, 101, 113, 59], [0x228a]), -- subsetneq;
  ([115, 117, 98, 115, 101, 116, 110, 101, 113, 113, 59], [0x2acb]), -- subsetneqq;
  ([115, 117, 98, 115, 105, 109, 59], [0x2ac7]), -- subsim;
  ([115, 117, 98, 115, 117, 98, 59], [0x2ad5]), -- subsub;
  ([115, 117, 98, 115, 117, 112, 59], [0x2ad3]), -- subsup;
  ([115, 117, 99, 99, 59], [0x227b]), -- succ;
  ([115, 117, 99, 99, 97, 112, 112, 114, 111, 120, 59], [0x2ab8]), -- succapprox;
  ([115, 117, 99, 99, 99, 117, 114, 108, 121, 101, 113, 59], [0x227d]), -- succcurlyeq;
  ([83, 117, 99, 99, 101, 101, 100, 115, 59], [0x227b]), -- Succeeds;
  ([83, 117, 99, 99, 101, 101, 100, 115, 69, 113, 117, 97, 108, 59], [0x2ab0]), -- SucceedsEqual;
  ([83, 117, 99, 99, 101, 101, 100, 115, 83, 108, 97, 110, 116, 69, 113, 117, 97, 108, 59], [0x227d]), -- SucceedsSlantEqual;
  ([83, 117, 99, 99, 101, 101, 100, 115, 84, 105, 108, 100, 101, 59], [0x227f]), -- SucceedsTilde;
  ([115, 117, 99, 99, 101, 113, 59], [0x2ab0]), -- succeq;
  ([115, 117, 99, 99, 110, 97, 112, 112, 114, 111, 120, 59], [0x2aba]), -- succnapprox;
  ([115, 117, 99, 99, 110, 101, 113, 113, 59], [0x2ab6]), -- succneqq;
  ([115, 117, 99, 99, 110, 115, 105, 109, 59], [0x22e9]), -- succnsim;
  ([115, 117, 99, 99, 115, 105, 109, 59], [0x227f]), -- succsim;
  ([83, 117, 99, 104, 84, 104, 97, 116, 59], [0x220b]), -- SuchThat;
  ([83, 117, 109, 59], [0x2211]), -- Sum;
  ([115, 117, 109, 59], [0x2211]), -- sum;
  ([115, 117, 110, 103, 59], [0x266a]), -- sung;
  ([115, 117, 112, 49], [0xb9]), -- sup1
  ([115, 117, 112, 49, 59], [0xb9]), -- sup1;
  ([115, 117, 112, 50], [0xb2]), -- sup2
  ([115, 117, 112, 50, 59], [0xb2]), -- sup2;
  ([115, 117, 112, 51], [0xb3]), -- sup3
  ([115, 117, 112, 51, 59], [0xb3]), -- sup3;
  ([83, 117, 112, 59], [0x22d1]), -- Sup;
  ([115, 117, 112, 59], [0x2283]), -- sup;
  ([115, 117, 112, 100, 111, 116, 59], [0x2abe]), -- supdot;
  ([115, 117, 112, 100, 115, 117, 98, 59], [0x2ad8]), -- supdsub;
  ([115, 117, 112, 69, 59], [0x2ac6]), -- supE;
  ([115, 117, 112, 101, 59], [0x2287]), -- supe;
  ([115, 117, 112, 101, 100, 111, 116, 59], [0x2ac4]), -- supedot;
  ([83, 117, 112, 101, 114, 115, 101, 116, 59], [0x2283]), -- Superset;
  ([83, 117, 112, 101, 114, 115, 101, 116, 69, 113, 117, 97, 108, 59], [0x2287]), -- SupersetEqual;
  ([115, 117, 112, 104, 115, 111, 108, 59], [0x27c9]), -- suphsol;
  ([115, 117, 112, 104, 115, 117, 98, 59], [0x2ad7]), -- suphsub;
  ([115, 117, 112, 108, 97, 114, 114, 59], [0x297b]), -- suplarr;
  ([115, 117, 112, 109, 117, 108, 116, 59], [0x2ac2]), -- supmult;
  ([115, 117, 112, 110, 69, 59], [0x2acc]), -- supnE;
  ([115, 117, 112, 110, 101, 59], [0x228b]), -- supne;
  ([115, 117, 112, 112, 108, 117, 115, 59], [0x2ac0]), -- supplus;
  ([83, 117, 112, 115, 101, 116, 59], [0x22d1]), -- Supset;
  ([115, 117, 112, 115, 101, 116, 59], [0x2283]), -- supset;
  ([115, 117, 112, 115, 101, 116, 101, 113, 59], [0x2287]), -- supseteq;
  ([115, 117, 112, 115, 101, 116, 101, 113, 113, 59], [0x2ac6]), -- supseteqq;
  ([115, 117, 112, 115, 101, 116, 110, 101, 113, 59], [0x228b]), -- supsetneq;
  ([115, 117, 112, 115, 101, 116, 110, 101, 113, 113, 59], [0x2acc]), -- supsetneqq;
  ([115, 117, 112, 115, 105, 109, 59], [0x2ac8]), -- supsim;
  ([115, 117, 112, 115, 117, 98, 59], [0x2ad4]), -- supsub;
  ([115, 117, 112, 115, 117, 112, 59], [0x2ad6]), -- supsup;
  ([115, 119, 97, 114, 104, 107, 59], [0x2926]), -- swarhk;
  ([115, 119, 65, 114, 114, 59], [0x21d9]), -- swArr;
  ([115, 119, 97, 114, 114, 59], [0x2199]), -- swarr;
  ([115, 119, 97, 114, 114, 111, 119, 59], [0x2199]), -- swarrow;
  ([115, 119, 110, 119, 97, 114, 59], [0x292a]), -- swnwar;
  ([115, 122, 108, 105, 103], [0xdf]), -- szlig
  ([115, 122, 108, 105, 103, 59], [0xdf]), -- szlig;
  ([84, 97, 98, 59], [0x9]), -- Tab;
  ([116, 97, 114, 103, 101, 116, 59], [0x2316]), -- target;
  ([84, 97, 117, 59], [0x3a4]), -- Tau;
  ([116, 97, 117, 59], [0x3c4]), -- tau;
  ([116, 98, 114, 107, 59], [0x23b4]), -- tbrk;
  ([84, 99, 97, 114, 111, 110, 59], [0x164]), -- Tcaron;
  ([116, 99, 97, 114, 111, 110, 59], [0x165]), -- tcaron;
  ([84, 99, 101, 100, 105, 108, 59], [0x162]), -- Tcedil;
  ([116, 99, 101, 100, 105, 108, 59], [0x163]), -- tcedil;
  ([84, 99, 121, 59], [0x422]), -- Tcy;
  ([116, 99, 121, 59], [0x442]), -- tcy;
  ([116, 100, 111, 116, 59], [0x20db]), -- tdot;
  ([116, 101, 108, 114, 101, 99, 59], [0x2315]), -- telrec;
  ([84, 102, 114, 59], [0x1d517]), -- Tfr;
  ([116, 102, 114, 59], [0x1d531]), -- tfr;
  ([116, 104, 101, 114, 101, 52, 59], [0x2234]), -- there4;
  ([84, 104, 101, 114, 101, 102, 111, 114, 101, 59], [0x2234]), -- Therefore;
  ([116, 104, 101, 114, 101, 102, 111, 114, 101, 59], [0x2234]), -- therefore;
  ([84, 104, 101, 116, 97, 59], [0x398]), -- Theta;
  ([116, 104, 101, 116, 97, 59], [0x3b8]), -- theta;
  ([116, 104, 101, 116, 97, 115, 121, 109, 59], [0x3d1]), -- thetasym;
  ([116, 104, 101, 116, 97, 118, 59], [0x3d1]), -- thetav;
  ([116, 104, 105, 99, 107, 97, 112, 112, 114, 111, 120, 59], [0x2248]), -- thickapprox;
  ([116, 104, 105, 99, 107, 115, 105, 109, 59], [0x223c]), -- thicksim;
  ([84, 104, 105, 99, 107, 83, 112, 97, 99, 101, 59], [0x205f, 0x200a]), -- ThickSpace;
  ([116, 104, 105, 110, 115, 112, 59], [0x2009]), -- thinsp;
  ([84, 104, 105, 110, 83, 112, 97, 99, 101, 59], [0x2009]), -- ThinSpace;
  ([116, 104, 107, 97, 112, 59], [0x2248]), -- thkap;
  ([116, 104, 107, 115, 105, 109, 59], [0x223c]), -- thksim;
  ([84, 72, 79, 82, 78], [0xde]), -- THORN
  ([116, 104, 111, 114, 110], [0xfe]), -- thorn
  ([84, 72, 79, 82, 78, 59], [0xde]), -- THORN;
  ([116, 104, 111, 114, 110, 59], [0xfe]), -- thorn;
  ([84, 105, 108, 100, 101, 59], [0x223c]), -- Tilde;
  ([116, 105, 108, 100, 101, 59], [0x2dc]), -- tilde;
  ([84, 105, 108, 100, 101, 69, 113, 117, 97, 108, 59], [0x2243]), -- TildeEqual;
  ([84, 105, 108, 100, 101, 70, 117, 108, 108, 69, 113, 117, 97, 108, 59], [0x2245]), -- TildeFullEqual;
  ([84, 105, 108, 100, 101, 84, 105, 108, 100, 101, 59], [0x2248]), -- TildeTilde;
  ([116, 105, 109, 101, 115], [0xd7]), -- times
  ([116, 105, 109, 101, 115, 59], [0xd7]), -- times;
  ([116, 105, 109, 101, 115, 98, 59], [0x22a0]), -- timesb;
  ([116, 105, 109, 101, 115, 98, 97, 114, 59], [0x2a31]), -- timesbar;
  ([116, 105, 109, 101, 115, 100, 59], [0x2a30]), -- timesd;
  ([116, 105, 110, 116, 59], [0x222d]), -- tint;
  ([116, 111, 101, 97, 59], [0x2928]), -- toea;
  ([116, 111, 112, 59], [0x22a4]), -- top;
  ([116, 111, 112, 98, 111, 116, 59], [0x2336]), -- topbot;
  ([116, 111, 112, 99, 105, 114, 59], [0x2af1]), -- topcir;
  ([84, 111, 112, 102, 59], [0x1d54b]), -- Topf;
  ([116, 111, 112, 102, 59], [0x1d565]), -- topf;
  ([116, 111, 112, 102, 111, 114, 107, 59], [0x2ada]), -- topfork;
  ([116, 111, 115, 97, 59], [0x2929]), -- tosa;
  ([116, 112, 114, 105, 109, 101, 59], [0x2034]), -- tprime;
  ([84, 82, 65, 68, 69, 59], [0x2122]), -- TRADE;
  ([116, 114, 97, 100, 101, 59], [0x2122]), -- trade;
  ([116, 114, 105, 97, 110, 103, 108, 101, 59], [0x25b5]), -- triangle;
  ([116, 114, 105, 97, 110, 103, 108, 101, 100, 111, 119, 110, 59], [0x25bf]), -- triangledown;
  ([116, 114, 105, 97, 110, 103, 108, 101, 108, 101, 102, 116, 59], [0x25c3]), -- triangleleft;
  ([116, 114, 105, 97, 110, 103, 108, 101, 108, 101, 102, 116, 101, 113, 59], [0x22b4]), -- trianglelefteq;
  ([116, 114, 105, 97, 110, 103, 108, 101, 113, 59], [0x225c]), -- triangleq;
  ([116, 114, 105, 97, 110, 103, 108, 101, 114, 105, 103, 104, 116, 59], [0x25b9]), -- triangleright;
  ([116, 114, 105, 97, 110, 103, 108, 101, 114, 105, 103, 104, 116, 101, 113, 59], [0x22b5]), -- trianglerighteq;
  ([116, 114, 105, 100, 111, 116, 59], [0x25ec]), -- tridot;
  ([116, 114, 105, 101, 59], [0x225c]), -- trie;
  ([116, 114, 105, 109, 105, 110, 117, 115, 59], [0x2a3a]), -- triminus;
  ([84, 114, 105, 112, 108, 101, 68, 111, 116, 59], [0x20db]), -- TripleDot;
  ([116, 114, 105, 112, 108, 117, 115, 59], [0x2a39]), -- triplus;
  ([116, 114, 105, 115, 98, 59], [0x29cd]), -- trisb;
  ([116, 114, 105, 116, 105, 109, 101, 59], [0x2a3b]), -- tritime;
  ([116, 114, 112, 101, 122, 105, 117, 109, 59], [0x23e2]), -- trpezium;
  ([84, 115, 99, 114, 59], [0x1d4af]), -- Tscr;
  ([116, 115, 99, 114, 59], [0x1d4c9]), -- tscr;
  ([84, 83, 99, 121, 59], [0x426]), -- TScy;
  ([116, 115, 99, 121, 59], [0x446]), -- tscy;
  ([84, 83, 72, 99, 121, 59], [0x40b]), -- TSHcy;
  ([116, 115, 104, 99, 121, 59], [0x45b]), -- tshcy;
  ([84, 115, 116, 114, 111, 107, 59], [0x166]), -- Tstrok;
  ([116, 115, 116, 114, 111, 107, 59], [0x167]), -- tstrok;
  ([116, 119, 105, 120, 116, 59], [0x226c]), -- twixt;
  ([116, 119, 111, 104, 101, 97, 100, 108, 101, 102, 116, 97, 114, 114, 111, 119, 59], [0x219e]), -- twoheadleftarrow;
  ([116, 119, 111, 104, 101, 97, 100, 114, 105, 103, 104, 116, 97, 114, 114, 111, 119, 59], [0x21a0]), -- twoheadrightarrow;
  ([85, 97, 99, 117, 116, 101], [0xda]), -- Uacute
  ([117, 97, 99, 117, 116, 101], [0xfa]), -- uacute
  ([85, 97, 99, 117, 116, 101, 59], [0xda]), -- Uacute;
  ([117, 97, 99, 117, 116, 101, 59], [0xfa]), -- uacute;
  ([85, 97, 114, 114, 59], [0x219f]), -- Uarr;
  ([117, 65, 114, 114, 59], [0x21d1]), -- uArr;
  ([117, 97, 114, 114, 59], [0x2191]), -- uarr;
  ([85, 97, 114, 114, 111, 99, 105, 114, 59], [0x2949]), -- Uarrocir;
  ([85, 98, 114, 99, 121, 59], [0x40e]), -- Ubrcy;
  ([117, 98, 114, 99, 121, 59], [0x45e]), -- ubrcy;
  ([85, 98, 114, 101, 118, 101, 59], [0x16c]), -- Ubreve;
  ([117, 98, 114, 101, 118, 101, 59], [0x16d])] -- ubreve;

/-- Entries 2000.. of `html5` (`kajiki/entities.py` 46-2278). -/
def html5Chunk10 : List (List Nat × List Nat) := [
  ([85, 99, 105, 114, 99], [0xdb]), -- Ucirc
  ([117, 99, 105, 114, 99], [0xfb]), -- ucirc
  ([85, 99, 105, 114, 99, 59], [0xdb]), -- Ucirc;
  ([117, 99, 105, 114, 99, 59], [0xfb]), -- ucirc;
  ([85, 99, 121, 59], [0x423]), -- Ucy;
  ([117, 99, 121, 59], [0x443]), -- ucy;
  ([117, 100, 97, 114, 114, 59], [0x21c5]), -- udarr;
  ([85, 100, 98, 108, 97, 99, 59], [0x170]), -- Udblac;
  ([117, 100, 98, 108, 97, 99, 59], [0x171]), -- udblac;
  ([117, 100, 104, 97, 114, 59], [0x296e]), -- udhar;
  ([117, 102, 105, 115, 104, 116, 59], [0x297e]), -- ufisht;
  ([85, 102, 114, 59], [0x1d518]), -- Ufr;
  ([117, 102, 114, 59], [0x1d532]), -- ufr;
  ([85, 103, 114, 97, 118, 101], [0xd9]), -- Ugrave
  ([117, 103, 114, 97, 118, 101], [0xf9]), -- ugrave
  ([85, 103, 114, 97, 118, 101, 59], [0xd9]), -- Ugrave;
  ([117, 103, 114, 97, 118, 101, 59], [0xf9]), -- ugrave;
  ([117, 72, 97, 114, 59], [0x2963]), -- uHar;
  ([117, 104, 97, 114, 108, 59], [0x21bf]), -- uharl;
  ([117, 104, 97, 114, 114, 59], [0x21be]), -- uharr;
  ([117, 104, 98, 108, 107, 59], [0x2580]), -- uhblk;
  ([117, 108, 99, 111, 114, 110, 59], [0x231c]), -- ulcorn;
  ([117, 108, 99, 111, 114, 110, 101, 114, 59], [0x231c]), -- ulcorner;
  ([117, 108, 99, 114, 111, 112, 59], [0x230f]), -- ulcrop;
  ([117, 108, 116, 114, 105, 59], [0x25f8]), -- ultri;
  ([85, 109, 97, 99, 114, 59], [0x16a]), -- Umacr;
  ([117, 109, 97, 99, 114, 59], [0x16b]), -- umacr;
  ([117, 109, 108], [0xa8]), -- uml
  ([117, 109, 108, 59], [0xa8]), -- uml;
  ([85, 110, 100, 101, 114, 66, 97, 114, 59], [0x5f]), -- UnderBar;
  ([85, 110, 100, 101, 114, 66, 114, 97, 99, 101, 59], [0x23df]), -- UnderBrace;
  ([85, 110, 100, 101, 114, 66, 114, 97, 99, 107, 101, 116, 59], [0x23b5]), -- UnderBracket;
  ([85, 110, 100, 101, 114, 80, 97, 114, 101, 110, 116, 104, 101, 115, 105, 115, 59], [0x23dd]), -- UnderParenthesis;
  ([85, 110, 105, 111, 110, 59], [0x22c3]), -- Union;
  ([85, 110, 105, 111, 110, 80, 108, 117, 115, 59], [0x228e]), -- UnionPlus;
  ([85, 111, 103, 111, 110, 59], [0x172]), -- Uogon;
  ([117, 111, 103, 111, 110, 59], [0x173]), -- uogon;
  ([85, 111, 112, 102, 59], [0x1d54c]), -- Uopf;
  ([117, 111, 112, 102, 59], [0x1d566]), -- uopf;
  ([85, 112, 65, 114, 114, 111, 119, 59], [0x2191]), -- UpArrow;
  ([85, 112, 97, 114, 114, 111, 119, 59], [0x21d1]), -- Uparrow;
  ([117, 112, 97, 114, 114, 111, 119, 59], [0x2191]), -- uparrow;
  ([85, 112, 65, 114, 114, 111, 119, 66, 97, 114, 59], [0x2912]), -- UpArrowBar;
  ([85, 112, 65, 114, 114, 111, 119, 68, 111, 119, 110, 65, 114, 114, 111, 119, 59], [0x21c5]), -- UpArrowDownArrow;
  ([85, 112, 68, 111, 119, 110, 65, 114, 114, 111, 119, 59], [0x2195]), -- UpDownArrow;
  ([85, 112, 100, 111, 119, 110, 97, 114, 114, 111, 119, 59], [0x21d5]), -- Updownarrow;
  ([117, 112, 100, 111, 119, 110, 97, 114, 114, 111, 119, 59], [0x2195]), -- updownarrow;
  ([85, 112, 69, 113, 117, 105, 108, 105, 98, 114, 105, 117, 109, 59], [0x296e]), -- UpEquilibrium;
  ([117, 112, 104, 97, 114, 112, 111, 111, 110, 108, 101, 102, 116, 59], [0x21bf]), -- upharpoonleft;
  ([117, 112, 104, 97, 114, 112, 111, 111, 110, 114, 105, 103, 104, 116, 59], [0x21be]), -- upharpoonright;
  ([117, 112, 108, 117, 115, 59], [0x228e]), -- uplus;
  ([85, 112, 112, 101, 114, 76, 101, 102, 116, 65, 114, 114, 111, 119, 59], [0x2196]), -- UpperLeftArrow;
  ([85, 112, 112, 101, 114, 82, 105, 103, 104, 116, 65, 114, 114, 111, 119, 59], [0x2197]), -- UpperRightArrow;
  ([85, 112, 115, 105, 59], [0x3d2]), -- Upsi;
  ([117, 112, 115, 105, 59], [0x3c5]), -- upsi;
  ([117, 112, 115, 105, 104, 59], [0x3d2]), -- upsih;
  ([85, 112, 115, 105, 108, 111, 110, 59], [0x3a5]), -- Upsilon;
  ([117, 112, 115, 105, 108, 111, 110, 59], [0x3c5]), -- upsilon;
  ([85, 112, 84, 101, 101, 59], [0x22a5]), -- UpTee;
  ([85, 112, 84, 101, 101, 65, 114, 114, 111, 119, 59], [0x21a5]), -- UpTeeArrow;
  ([117, 112, 117, 112, 97, 114, 114, 111, 119, 115, 59], [0x21c8]), -- upuparrows;
  ([117, 114, 99, 111, 114, 110, 59], [0x231d]), -- urcorn;
  ([117, 114, 99, 111, 114, 110, 101, 114, 59], [0x231d]), -- urcorner;
  ([117, 114, 99, 114, 111, 112, 59], [0x230e]), -- urcrop;
  ([85, 114, 105, 110, 103, 59], [0x16e]), -- Uring;
  ([117, 114, 105, 110, 103, 59], [0x16f]), -- uring;
  ([117, 114, 116, 114, 105, 59], [0x25f9]), -- urtri;
  ([85, 115, 99, 114, 59], [0x1d4b0]), -- Uscr;
  ([117, 115, 99, 114, 59], [0x1d4ca]), -- uscr;
  ([117, 116, 100, 111, 116, 59], [0x22f0]), -- utdot;
  ([85, 116, 105, 108, 100, 101, 59], [0x168]), -- Utilde;
  ([117, 116, 105, 108, 100, 101, 59], [0x169]), -- utilde;
  ([117, 116, 114, 105, 59], [0x25b5]), -- utri;
  ([117, 116, 114, 105, 102, 59], [0x25b4]), -- utrif;
  ([117, 117, 97, 114, 114, 59], [0x21c8]), -- uuarr;
  ([85, 117, 109, 108], [0xdc]), -- Uuml
  ([117, 117, 109, 108], [0xfc]), -- uuml
  ([85, 117, 109, 108, 59], [0xdc]), -- Uuml;
  ([117, 117, 109, 108, 59], [0xfc]), -- uuml;
  ([117, 119, 97, 110, 103, 108, 101, 59], [0x29a7]), -- uwangle;
  ([118, 97, 110, 103, 114, 116, 59], [0x299c]), -- vangrt;
  ([118, 97, 114, 101, 112, 115, 105, 108, 111, 110, 59], [0x3f5]), -- varepsilon;
  ([118, 97, 114, 107, 97, 112, 112, 97, 59], [0x3f0]), -- varkappa;
  ([118, 97, 114, 110, 111, 116, 104, 105, 110, 103, 59], [0x2205]), -- varnothing;
  ([118, 97, 114, 112, 104, 105, 59], [0x3d5]), -- varphi;
  ([118, 97, 114, 112, 105, 59], [0x3d6]), -- varpi;
  ([118, 97, 114, 112, 114, 111, 112, 116, 111, 59], [0x221d]), -- varpropto;
  ([118, 65, 114, 114, 59], [0x21d5]), -- vArr;
  ([118, 97, 114, 114, 59], [0x2195]), -- varr;
  ([118, 97, 114, 114, 104, 111, 59], [0x3f1]), -- varrho;
  ([118, 97, 114, 115, 105, 103, 109, 97, 59], [0x3c2]), -- varsigma;
  ([118, 97, 114, 115, 117, 98, 115, 101, 116, 110, 101, 113, 59], [0x228a, 0xfe00]), -- varsubsetneq;
  ([118, 97, 114, 115, 117, 98, 115, 101, 116, 110, 101, 113, 113, 59], [0x2acb, 0xfe00]), -- varsubsetneqq;
  ([118, 97, 114, 115, 117, 112, 115, 101, 116, 110, 101, 113, 59], [0x228b, 0xfe00]), -- varsupsetneq;
  ([118, 97, 114, 115, 117, 112, 115, 101, 116, 110, 101, 113, 113, 59], [0x2acc, 0xfe00]), -- varsupsetneqq;
  ([118, 97, 114, 116, 104, 101, 116, 97, 59], [0x3d1]), -- vartheta;
  ([118, 97, 114, 116, 114, 105, 97, 110, 103, 108, 101, 108, 101, 102, 116, 59], [0x22b2]), -- vartriangleleft;
  ([118, 97, 114, 116, 114, 105, 97, 110, 103, 108, 101, 114, 105, 103, 104, 116, 59], [0x22b3]), -- vartriangleright;
  ([86, 98, 97, 114, 59], [0x2aeb]), -- Vbar;
  ([118, 66, 97, 114, 59], [0x2ae8]), -- vBar;
  ([118, 66, 97, 114, 118, 59], [0x2ae9]), -- vBarv;
  ([86, 99, 121, 59], [0x412]), -- Vcy;
  ([118, 99, 121, 59], [0x432]), -- vcy;
  ([86, 68, 97, 115, 104, 59], [0x22ab]), -- VDash;
  ([86, 100, 97, 115, 104, 59], [0x22a9]), -- Vdash;
  ([118, 68, 97, 115, 104, 59], [0x22a8]), -- vDash;
  ([118, 100, 97, 115, 104, 59], [0x22a2]), -- vdash;
  ([86, 100, 97, 115, 104, 108, 59], [0x2ae6]), -- Vdashl;
  ([86, 101, 101, 59], [0x22c1]), -- Vee;
  ([118, 101, 101, 59], [0x2228]), -- vee;
  ([118, 101, 101, 98, 97, 114, 59], [0x22bb]), -- veebar;
  ([118, 101, 101, 101, 113, 59], [0x225a]), -- veeeq;
  ([118, 101, 108, 108, 105, 112, 59], [0x22ee]), -- vellip;
  ([86, 101, 114, 98, 97, 114, 59], [0x2016]), -- Verbar;
  ([118, 101, 114, 98, 97, 114, 59], [0x7c]), -- verbar;
  ([86, 101, 114, 116, 59], [0x2016]), -- Vert;
  ([118, 101, 114, 116, 59], [0x7c]), -- vert;
  ([86, 101, 114, 116, 105, 99, 97, 108, 66, 97, 114, 59], [0x2223]), -- VerticalBar;
  ([86, 101, 114, 116, 105, 99, 97, 108, 76, 105, 110, 101, 59], [0x7c]), -- VerticalLine;
  ([86, 101, 114, 116, 105, 99, 97, 108, 83, 101, 112, 97, 114, 97, 116, 111, 114, 59], [0x2758]), -- VerticalSeparator;
  ([86, 101, 114, 116, 105, 99, 97, 108, 84, 105, 108, 100, 101, 59], [0x2240]), -- VerticalTilde;
  ([86, 101, 114, 121, 84, 104, 105, 110, 83, 112, 97, 99, 101, 59], [0x200a]), -- VeryThinSpace;
  ([86, 102, 114, 59], [0x1d519]), -- Vfr;
  ([118, 102, 114, 59], [0x1d533]), -- vfr;
  ([118, 108, 116, 114, 105, 59], [0x22b2]), -- vltri;
  ([118, 110, 115, 117, 98, 59], [0x2282, 0x20d2]), -- vnsub;
  ([118, 110, 115, 117, 112, 59], [0x2283, 0x20d2]), -- vnsup;
  ([86, 111, 112, 102, 59], [0x1d54d]), -- Vopf;
  ([118, 111, 112, 102, 59], [0x1d567]), -- vopf;
  ([118, 112, 114, 111, 112, 59], [0x221d]), -- vprop;
  ([118, 114, 116, 114, 105, 59], [0x22b3]), -- vrtri;
  ([86, 115, 99, 114, 59], [0x1d4b1]), -- Vscr;
  ([118, 115, 99, 114, 59], [0x1d4cb]), -- vscr;
  ([118, 115, 117, 98, 110, 69, 59], [0x2acb, 0xfe00]), -- vsubnE;
  ([118, 115, 117, 98, 110, 101, 59], [0x228a, 0xfe00]), -- vsubne;
  ([118, 115, 117, 112, 110, 69, 59], [0x2acc, 0xfe00]), -- vsupnE;
  ([118, 115, 117, 112, 110, 101, 59], [0x228b, 0xfe00]), -- vsupne;
  ([86, 118, 100, 97, 115, 104, 59], [0x22aa]), -- Vvdash;
  ([118, 122, 105, 103, 122, 97, 103, 59], [0x299a]), -- vzigzag;
  ([87, 99, 105, 114, 99, 59], [0x174]), -- Wcirc;
  ([119, 99, 105, 114, 99, 59], [0x175]), -- wcirc;
  ([119, 101, 100, 98, 97, 114, 59], [0x2a5f]), -- wedbar;
  ([87, 101, 100, 103, 101, 59], [0x22c0]), -- Wedge;
  ([119, 101, 100, 103, 101, 59], [0x2227]), -- wedge;
  ([119, 101, 100, 103, 101, 113, 59], [0x2259]), -- wedgeq;
  ([119, 101, 105, 101, 114, 112, 59], [0x2118]), -- weierp;
  ([87, 102, 114, 59], [0x1d51a]), -- Wfr;
  ([119, 102, 114, 59], [0x1d534]), -- wfr;
  ([87, 111, 112, 102, 59], [0x1d54e]), -- Wopf;
  ([119, 111, 112, 102, 59], [0x1d568]), -- wopf;
  ([119, 112, 59], [0x2118]), -- wp;
  ([119, 114, 59], [0x2240]), -- wr;
  ([119, 114, 101, 97, 116, 104, 59], [0x2240]), -- wreath;
  ([87, 115, 99, 114, 59], [0x1d4b2]), -- Wscr;
  ([119, 115, 99, 114, 59], [0x1d4cc]), -- wscr;
  ([120, 99, 97, 112, 59], [0x22c2]), -- xcap;
  ([120, 99, 105, 114, 99, 59], [0x25ef]), -- xcirc;
  ([120, 99, 117, 112, 59], [0x22c3]), -- xcup;
  ([120, 100, 116, 114, 105, 59], [0x25bd]), -- xdtri;
  ([88, 102, 114, 59], [0x1d51b]), -- Xfr;
  ([120, 102, 114, 59], [0x1d535]), -- xfr;
  ([120, 104, 65, 114, 114, 59], [0x27fa]), -- xhArr;
  ([120, 104, 97, 114, 114, 59], [0x27f7]), -- xharr;
  ([88, 105, 59], [0x39e]), -- Xi;
  ([120, 105, 59], [0x3be]), -- xi;
  ([120, 108, 65, 114, 114, 59], [0x27f8]), -- xlArr;
  ([120, 108, 97, 114, 114, 59], [0x27f5]), -- xlarr;
  ([120, 109, 97, 112, 59], [0x27fc]), -- xmap;
  ([120, 110, 105, 115, 59], [0x22fb]), -- xnis;
  ([120, 111, 100, 111, 116, 59], [0x2a00]), -- xodot;
  ([88, 111, 112, 102, 59], [0x1d54f]), -- Xopf;
  ([120, 111, 112, 102, 59], [0x1d569]), -- xopf;
  ([120, 111, 112, 108, 117, 115, 59], [0x2a01]), -- xoplus;
  ([120, 111, 116, 105, 109, 101, 59], [0x2a02]), -- xotime;
  ([120, 114, 65, 114, 114, 59], [0x27f9]), -- xrArr;
  ([120, 114, 97, 114, 114, 59], [0x27f6]), -- xrarr;
  ([88, 115, 99, 114, 59], [0x1d4b3]), -- Xscr;
  ([120, 115, 99, 114, 59], [0x1d4cd]), -- xscr;
  ([120, 115, 113, 99, 117, 112, 59], [0x2a06]), -- xsqcup;
  ([120, 117, 112, 108, 117, 115, 59], [0x2a04]), -- xuplus;
  ([120, 117, 116, 114, 105, 59], [0x25b3]), -- xutri;
  ([120, 118, 101, 101, 59], [0x22c1]), -- xvee;
  ([120, 119, 101, 100, 103, 101, 59], [0x22c0]), -- xwedge;
  ([89, 97, 99, 117, 116, 101], [0xdd]), -- Yacute
  ([121, 97, 99, 117, 116, 101], [0xfd]), -- yacute
  ([89, 97, 99, 117, 116, 101, 59], [0xdd]), -- Yacute;
  ([121, 97, 99, 117, 116, 101, 59], [0xfd]), -- yacute;
  ([89, 65, 99, 121, 59], [0x42f]), -- YAcy;
  ([121, 97, 99, 121, 59], [0x44f]), -- yacy;
  ([89, 99, 105, 114, 99, 59], [0x176]), -- Ycirc;
  ([121, 99, 105, 114, 99, 59], [0x177]), -- ycirc;
  ([89, 99, 121, 59], [0x42b]), -- Ycy;
  ([121, 99, 121, 59], [0x44b]), -- ycy;
  ([121, 101, 110], [0xa5]), -- yen
  ([121, 101, 110, 59], [0xa5]), -- yen;
  ([89, 102, 114, 59], [0x1d51c]), -- Yfr;
  ([121, 102, 114, 59], [0x1d536]), -- yfr;
  ([89, 73, 99, 121, 59], [0x407]), -- YIcy;
  ([121, 105, 99, 121, 59], [0x457]), -- yicy;
  ([89, 111, 112, 102, 59], [0x1d550])] -- Yopf;

/-- Entries 2200.. of `html5` (`kajiki/entities.py` 46-2278). -/
def html5Chunk11 : List (List Nat × List Nat) := [
  ([121, 111, 112, 102, 59], [0x1d56a]), -- yopf;
  ([89, 115, 99, 114, 59], [0x1d4b4]), -- Yscr;
  ([121, 115, 99, 114, 59], [0x1d4ce]), -- yscr;
  ([89, 85, 99, 121, 59], [0x42e]), -- YUcy;
  ([121, 117, 99, 121, 59], [0x44e]), -- yucy;
  ([121, 117, 109, 108], [0xff]), -- yuml
  ([89, 117, 109, 108, 59], [0x178]), -- Yuml;
  ([121, 117, 109, 108, 59], [0xff]), -- yuml;
  ([90, 97, 99, 117, 116, 101, 59], [0x179]), -- Zacute;
  ([122, 97, 99, 117, 116, 101, 59], [0x17a]), -- zacute;
  ([90, 99, 97, 114, 111, 110, 59], [0x17d]), -- Zcaron;
  ([122, 99, 97, 114, 111, 110, 59], [0x17e]), -- zcaron;
  ([90, 99, 121, 59], [0x417]), -- Zcy;
  ([122, 99, 121, 59], [0x437]), -- zcy;
  ([90, 100, 111, 116, 59], [0x17b]), -- Zdot;
  ([122, 100, 111, 116, 59], [0x17c]), -- zdot;
  ([122, 101, 101, 116, 114, 102, 59], [0x2128]), -- zeetrf;
  ([90, 101, 114, 111, 87, 105, 100, 116, 104, 83, 112, 97, 99, 101, 59], [0x200b]), -- ZeroWidthSpace;
  ([90, 101, 116, 97, 59], [0x396]), -- Zeta;
  ([122, 101, 116, 97, 59], [0x3b6]), -- zeta;
  ([90, 102, 114, 59], [0x2128]), -- Zfr;
  ([122, 102, 114, 59], [0x1d537]), -- zfr;
  ([90, 72, 99, 121, 59], [0x416]), -- ZHcy;
  ([122, 104, 99, 121, 59], [0x436]), -- zhcy;
  ([122, 105, 103, 114, 97, 114, 114, 59], [0x21dd]), -- zigrarr;
  ([90, 111, 112, 102, 59], [0x2124]), -- Zopf;
  ([122, 111, 112, 102, 59], [0x1d56b]), -- zopf;
  ([90, 115, 99, 114, 59], [0x1d4b5]), -- Zscr;
  ([122, 115, 99, 114, 59], [0x1d4cf]), -- zscr;
  ([122, 119, 106, 59], [0x200d]), -- zwj;
  ([122, 119, 110, 106, 59], [0x200c])] -- zwnj;

/-- `html5` (`kajiki/entities.py` 46-2278). -/
def html5Table : List (List Nat × List Nat) :=
  html5Chunk0 ++
  html5Chunk1 ++
  html5Chunk2 ++
  html5Chunk3 ++
  html5Chunk4 ++
  html5Chunk5 ++
  html5Chunk6 ++
  html5Chunk7 ++
  html5Chunk8 ++
  html5Chunk9 ++
  html5Chunk10 ++
  html5Chunk11

end Kajiki
