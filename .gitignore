lean/.lake/
**/build/
*.olean
