.lake/
lake-manifest.json
*.olean
*.ilean
