ok   py shake_128s keygen+sign 
ok   py shake_128f keygen+sign 
ok   py shake_192s keygen+sign 
ok   py shake_192f keygen+sign 
ok   py shake_256s keygen+sign 
ok   py shake_256f keygen+sign 
ok   py sha2_128s keygen+sign 
ok   py sha2_128f keygen+sign 
ok   py sha2_192s keygen+sign 
ok   py sha2_192f keygen+sign 
ok   py sha2_256s keygen+sign 
ok   py sha2_256f keygen+sign 
ok   nist keygen sha2_128s 1 
ok   nist keygen sha2_128s 2 
ok   nist keygen sha2_128s 3 
ok   nist keygen sha2_128s 4 
ok   nist keygen sha2_128s 5 
ok   nist keygen sha2_128s 6 
ok   nist keygen sha2_128s 7 
ok   nist keygen sha2_128s 8 
ok   nist keygen sha2_128s 9 
ok   nist keygen sha2_128s 10 
ok   nist keygen sha2_192f 11 
ok   nist keygen sha2_192f 12 
ok   nist keygen sha2_192f 13 
ok   nist keygen sha2_192f 14 
ok   nist keygen sha2_192f 15 
ok   nist keygen sha2_192f 16 
ok   nist keygen sha2_192f 17 
ok   nist keygen sha2_192f 18 
ok   nist keygen sha2_192f 19 
ok   nist keygen sha2_192f 20 
ok   nist keygen shake_192s 21 
ok   nist keygen shake_192s 22 
ok   nist keygen shake_192s 23 
ok   nist keygen shake_192s 24 
ok   nist keygen shake_192s 25 
ok   nist keygen shake_192s 26 
ok   nist keygen shake_192s 27 
ok   nist keygen shake_192s 28 
ok   nist keygen shake_192s 29 
ok   nist keygen shake_192s 30 
ok   nist keygen shake_256f 31 
ok   nist keygen shake_256f 32 
ok   nist keygen shake_256f 33 
ok   nist keygen shake_256f 34 
ok   nist keygen shake_256f 35 
ok   nist keygen shake_256f 36 
ok   nist keygen shake_256f 37 
ok   nist keygen shake_256f 38 
ok   nist keygen shake_256f 39 
ok   nist keygen shake_256f 40 
ok   nist verify sha2_192s 1 (invalid signature - signature is too large) 
ok   nist verify sha2_192s 2 (modified signature - SIGFORS modified) 
ok   nist verify sha2_192s 3 (valid signature and message - signature should verify successfully) 
ok   nist sign sha2_192s 3 
ok   nist verify sha2_192s 4 (valid signature and message - signature should verify successfully) 
ok   nist sign sha2_192s 4 
ok   nist verify sha2_192s 5 (valid signature and message - signature should verify successfully) 
ok   nist sign sha2_192s 5 
ok   nist verify sha2_192s 6 (modified signature - SIGHT modified) 
ok   nist verify sha2_192s 7 (message altered) 
ok   nist verify sha2_192s 8 (invalid signature - signature is too small) 
ok   nist verify sha2_192s 9 (modified signature - R modified) 
ok   nist verify sha2_256f 10 (modified signature - SIGFORS modified) 
ok   nist verify sha2_256f 11 (modified signature - R modified) 
ok   nist verify sha2_256f 12 (message altered) 
ok   nist verify sha2_256f 13 (invalid signature - signature is too small) 
ok   nist verify sha2_256f 14 (valid signature and message - signature should verify successfully) 
ok   nist sign sha2_256f 14 
ok   nist verify sha2_256f 15 (invalid signature - signature is too large) 
ok   nist verify sha2_256f 16 (valid signature and message - signature should verify successfully) 
ok   nist sign sha2_256f 16 
ok   nist verify sha2_256f 17 (valid signature and message - signature should verify successfully) 
ok   nist sign sha2_256f 17 
ok   nist verify sha2_256f 18 (modified signature - SIGHT modified) 
ok   nist verify shake_192s 19 (valid signature and message - signature should verify successfully) 
ok   nist sign shake_192s 19 
ok   nist verify shake_192s 20 (invalid signature - signature is too large) 
ok   nist verify shake_192s 21 (valid signature and message - signature should verify successfully) 
ok   nist sign shake_192s 21 
ok   nist verify shake_192s 22 (modified signature - SIGHT modified) 
ok   nist verify shake_192s 23 (modified signature - R modified) 
ok   nist verify shake_192s 24 (valid signature and message - signature should verify successfully) 
ok   nist sign shake_192s 24 
ok   nist verify shake_192s 25 (modified signature - SIGFORS modified) 
ok   nist verify shake_192s 26 (message altered) 
ok   nist verify shake_192s 27 (invalid signature - signature is too small) 
ok   nist verify shake_256f 28 (invalid signature - signature is too large) 
ok   nist verify shake_256f 29 (invalid signature - signature is too small) 
ok   nist verify shake_256f 30 (valid signature and message - signature should verify successfully) 
ok   nist sign shake_256f 30 
ok   nist verify shake_256f 31 (modified signature - SIGFORS modified) 
ok   nist verify shake_256f 32 (valid signature and message - signature should verify successfully) 
ok   nist sign shake_256f 32 
ok   nist verify shake_256f 33 (modified signature - SIGHT modified) 
ok   nist verify shake_256f 34 (valid signature and message - signature should verify successfully) 
ok   nist sign shake_256f 34 
ok   nist verify shake_256f 35 (modified signature - R modified) 
ok   nist verify shake_256f 36 (message altered) 
ok   nist verify shake_128f 37 (valid signature and message - signature should verify successfully) 
ok   nist sign shake_128f 37 
ok   nist verify shake_128f 38 (invalid signature - signature is too small) 
ok   nist verify shake_128f 39 (invalid signature - signature is too large) 
ok   nist verify shake_128f 40 (valid signature and message - signature should verify successfully) 
ok   nist sign shake_128f 40 
ok   nist verify shake_128f 41 (modified signature - R modified) 
ok   nist verify shake_128f 42 (modified signature - SIGFORS modified) 
ok   nist verify shake_128f 43 (modified signature - SIGHT modified) 
ok   nist verify shake_128f 44 (valid signature and message - signature should verify successfully) 
ok   nist sign shake_128f 44 
ok   nist verify shake_128f 45 (message altered) 
